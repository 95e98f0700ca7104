import Verif.Lemmas.FailsChain
/-! How `Decode` fails, for all types. -/
namespace Verif
open Dec

/-! ### Ways of reaching the destination -/

theorem via_faults {t : Ty} (ht : t.isChain = false) (mode : Mode) (old : t.Val) {fast slow : t.Val → Dec (t.Val × Option Err)} {F K : Err → Bytes → Failure → Prop}
    (hf : (fast old).Faults F) (hs : (slow old).Faults K) :
    (viaDecFn chainDecoder t mode old fast slow).Faults fun fin s x => (mode = .decode ∨ mode = .elem) ∧ F fin s x ∨ mode = .value ∧ K fin s x ∨ mode.Refuses x := by
  unfold Mode.Refuses
  cases mode with
  | value => exact hs.iff fun _ _ _ => by simp
  | variant i => exact (faults_fail old errVariantKind).iff fun _ _ x => by simp [errVariantKind]
  | member => exact (faults_fail old errVariantMember).iff fun _ _ x => by simp [errVariantMember]
  | decode => unfold viaDecFn; rw [chainDecoder_else t ht]; exact hf.iff fun _ _ _ => by simp
  | elem => unfold viaDecFn; rw [chainDecoder_else t ht]; exact hf.iff fun _ _ _ => by simp

theorem via_faults' {t : Ty} (ht : t.isChain = false) (mode : Mode) (old : t.Val) {f : t.Val → Dec (t.Val × Option Err)} {F : Err → Bytes → Failure → Prop} (hf : (f old).Faults F) :
    (viaDecFn chainDecoder t mode old f f).Faults fun fin s x => (mode = .decode ∨ mode = .elem ∨ mode = .value) ∧ F fin s x ∨ mode.Refuses x :=
  (via_faults ht mode old hf hf).iff fun _ _ _ => by tauto

theorem chain_mode_faults (c : ChainTy) (m : Mode) : (decodeWith chainDecoder (.chain c) m c.zero).Faults fun fin s x => m ≠ .member ∧ c.Failure fin s x ∨ m = .member ∧ m.Refuses x := by
  have h := chain_faults c
  cases m with
  | variant i => exact h.iff fun _ _ _ => by simp
  | member => exact (faults_fail c.zero errVariantMember).iff fun _ _ _ => by simp [Mode.Refuses, errVariantMember]
  | value => rw [decode_chain c _ (by simp [Mode.Plain])]; exact h.iff fun _ _ _ => by simp
  | decode => rw [decode_chain c _ (by simp [Mode.Plain])]; exact h.iff fun _ _ _ => by simp
  | elem => rw [decode_chain c _ (by simp [Mode.Plain])]; exact h.iff fun _ _ _ => by simp

theorem bytes_turn (xs s m : Bytes) : InTurn (Splits fun (b : UInt8) w => w = [b]) xs s m ↔ s = xs ++ m := by
  induction xs generalizing s m with
  | nil => exact ⟨fun h => by cases h; rfl, fun h => by subst h; exact .nil⟩
  | cons x xs ih =>
    constructor
    · intro h
      cases h with
      | cons h1 h2 =>
        obtain ⟨w, rfl, rfl⟩ := h1
        rw [(ih _ _).1 h2]
        rfl
    · rintro rfl
      exact .cons ⟨[x], rfl, rfl⟩ ((ih _ _).2 rfl)

theorem elemBytes_faults : (decodeSlice (0 : UInt8) 1 (fun x => viaDecFn chainDecoder (.basic .u8) .elem x (fun _ => readUint8) (fun x => pure (x, none))) none).Faults
    fun fin s x => LebFault fin s x ∨ AfterLeb (fun n fin s x => maxAlloc < n ∧ x = .panic ∨ n ≤ maxAlloc ∧ s.length < n ∧ x = .err fin) fin s x := by
  have hm : maxAlloc < 2 ^ 63 := by decide
  refine (decodeSlice_faults (0 : UInt8) 1 (dec := fun x => viaDecFn chainDecoder (.basic .u8) .elem x (fun _ => readUint8) (fun x => pure (x, none))) readUint8_exactly.yields readUint8_faults).iff fun fin s x =>
    or_congr Iff.rfl (exists_congr fun n => exists_congr fun lb => exists_congr fun s' => and_congr_right fun _ => and_congr_right fun _ => ?_)
  constructor
  · rintro (⟨h1, h2⟩ | ⟨h1, h2, xs, m, h3, h4, h5, rfl⟩)
    · exact .inl ⟨by omega, h2⟩
    · rw [(bytes_turn _ _ _).1 h4]
      have : m = [] := List.length_eq_zero_iff.1 (by omega)
      subst this
      exact .inr ⟨by omega, by simpa using h3, by simp⟩
  · rintro (⟨h1, h2⟩ | ⟨h1, h2, rfl⟩)
    · exact .inl ⟨.inr (by omega), h2⟩
    · exact .inr ⟨by omega, by omega, s', [], h2, (bytes_turn _ _ _).2 (by simp), by simp, by simp⟩

/-! ### Fields -/

/-- Read, go on with `q` and no input on io.EOF. -/
theorem Dec.Faults.extension {α β : Type} {p : Dec (β × Option Err)} {f : β × Option Err → Dec (α × Option Err)} {q : Dec (α × Option Err)} {G : Err → β → Bytes → Bytes → Prop} {S : Bytes → Prop}
    {F Q : Err → Bytes → Failure → Prop} {K : β → Err → Bytes → Failure → Prop} (hp : p.Does G S) (hF : p.Faults F) (hf : ∀ b, (f (b, none)).Faults (K b))
    (he : ∀ b e, e ≠ .eof → ∃ a, f (b, some e) = pure (a, some e)) (hq : ∀ b, f (b, some .eof) = q) (hQ : q.Faults Q) :
    (p >>= f).Faults fun fin s x => (F fin s x ∧ x ≠ .err .eof) ∨ (F fin s (.err .eof) ∧ Q fin [] x) ∨ ∃ b m, G fin b s m ∧ K b fin m x := by
  intro fin s x
  rw [Dec.runE_bind]
  have h0 := hF fin s
  have h1 := hp.gives fin s
  have h2 := hp.stops fin s
  cases h : p.runE fin s with
  | ok a m =>
    obtain ⟨b, e⟩ := a
    rw [h] at h0 h1 h2
    cases e with
    | none =>
      show ((f (b, none)).runE fin m).Faults x ↔ _
      rw [hf b fin m x]
      constructor
      · exact fun h' => .inr (.inr ⟨b, m, (h1 b m).1 rfl, h'⟩)
      · rintro (⟨h', _⟩ | ⟨h', _⟩ | ⟨b', m', h', h''⟩)
        · exact (Out.faults_ok _ ((h0 _).2 h')).elim
        · exact (Out.faults_ok _ ((h0 _).2 h')).elim
        · have := (h1 b' m').2 h'
          cases this
          exact h''
    | some e =>
      show ((f (b, some e)).runE fin m).Faults x ↔ _
      have h3 := fun x => (h0 x).symm.trans (Out.faults_err e x)
      by_cases hee : e = .eof
      · subst hee
        obtain ⟨_, _, rfl⟩ := (h2 m).1 ⟨b, rfl⟩
        rw [hq, hQ fin [] x]
        constructor
        · exact fun h' => .inr (.inl ⟨(h3 _).2 rfl, h'⟩)
        · rintro (⟨h', h''⟩ | ⟨_, h'⟩ | ⟨b', m', h', _⟩)
          · exact absurd ((h3 x).1 h') h''
          · exact h'
          · exact nomatch (h1 b' m').2 h'
      · obtain ⟨a, ha⟩ := he b e hee
        rw [ha]
        refine (Out.faults_err e x).trans ⟨?_, ?_⟩
        · rintro rfl
          exact .inl ⟨(h3 _).2 rfl, fun h' => hee (by injection h')⟩
        · rintro (⟨h', h''⟩ | ⟨h', _⟩ | ⟨b', m', h', _⟩)
          · exact (h3 x).1 h'
          · have := (h3 _).1 h'
            injection this with this
            exact absurd this.symm hee
          · exact nomatch (h1 b' m').2 h'
  | panic w =>
    rw [h] at h0 h1
    have h3 := fun x => (h0 x).symm.trans (Out.faults_panic x)
    refine (Out.faults_panic x).trans ⟨?_, ?_⟩
    · rintro rfl
      exact .inl ⟨(h3 _).2 rfl, by simp⟩
    · rintro (⟨h', h''⟩ | ⟨h', _⟩ | ⟨b', m', h', _⟩)
      · exact (h3 x).1 h'
      · exact nomatch (h3 _).1 h'
      · exact nomatch (h1 b' m').2 h'
  | diverge =>
    rw [h] at h0 h1
    have h3 := fun x => (h0 x).symm.trans (Out.faults_diverge x)
    refine (Out.faults_diverge x).trans ⟨?_, ?_⟩
    · rintro rfl
      exact .inl ⟨(h3 _).2 rfl, by simp⟩
    · rintro (⟨h', h''⟩ | ⟨h', _⟩ | ⟨b', m', h', _⟩)
      · exact (h3 x).1 h'
      · exact nomatch (h3 _).1 h'
      · exact nomatch (h1 b' m').2 h'

theorem Dec.Does.yields {α : Type} {p : Dec (α × Option Err)} {G : Err → α → Bytes → Bytes → Prop} {S : Bytes → Prop} (h : p.Does G S) : p.Yields G := h.gives

theorem Dec.Faults.next {α β : Type} {p : Dec (β × Option Err)} {F : Err → Bytes → Failure → Prop} (h : p.Faults F) (y : α) : (p >>= fun z => pure ((y, z.1), z.2)).Faults F :=
  h.map (fun _ => ⟨_, rfl⟩) fun _ _ => ⟨_, rfl⟩

/-- One field. -/
theorem decodeField_faults {α β : Type} (vis : Vis) (tag : Tag) (x' zero : α) {dec : Mode → Dec (α × Option Err)} {T : Err → Mode → α → Bytes → Bytes → Prop} {S : Mode → Bytes → Prop} {F : Err → Mode → Bytes → Failure → Prop}
    (hd : (dec .elem).Does (fun fin => T fin .elem) (S .elem)) (hv : ∀ i, (dec (.variant i)).Does (fun fin => T fin (.variant i)) (S (.variant i)))
    (fd : (dec .elem).Faults fun fin => F fin .elem) (fv : ∀ i, (dec (.variant i)).Faults fun fin => F fin (.variant i))
    (xs : β) {rest : Option Err → Dec (β × Option Err)} {FR : Err → Bool → Bytes → Failure → Prop}
    (hr : ∀ before : Bool, (rest (if before = true then some .eof else none)).Faults fun fin => FR fin before) (before : Bool) :
    (decodeField vis tag zero x' zero dec xs (if before = true then some .eof else none) rest).Faults fun fin s x => match vis, tag with
        | .blank, _ => FR fin before s x
        | .unexported, _ => x = .panic
        | .exported, .optional => Torn 1 fin s x ∨ (∃ s', s = 0 :: s' ∧ FR fin before s' x) ∨
            ∃ p s', p ≠ 0 ∧ s = p :: s' ∧ (F fin .elem s' x ∨ ∃ v m, T fin .elem v s' m ∧ FR fin false m x)
        | .exported, .variant => Torn 1 fin s x ∨ ∃ (idx : UInt8) (s' : Bytes), s = idx :: s' ∧
            (F fin (.variant idx.toNat) s' x ∨ ∃ v m, T fin (.variant idx.toNat) v s' m ∧ FR fin false m x)
        | .exported, .extension => (F fin .elem s x ∧ x ≠ .err .eof) ∨ (F fin .elem s (.err .eof) ∧ FR fin true [] x) ∨ ∃ v m, T fin .elem v s m ∧ FR fin false m x
        | .exported, .none => F fin .elem s x ∨ ∃ v m, T fin .elem v s m ∧ FR fin false m x := by
  have hn : ∀ y : α, (rest none >>= fun z => pure ((y, z.1), z.2)).Faults fun fin => FR fin false := fun y => (hr false).next y
  have one : ∀ mode : Mode, (dec mode).Does (fun fin => T fin mode) (S mode) → ((dec mode).Faults fun fin => F fin mode) →
      (dec mode >>= fun z => match z.2 with | some e => pure ((z.1, xs), some e) | none => (rest none >>= fun u => pure ((z.1, u.1), u.2))).Faults
      fun fin s x => F fin mode s x ∨ ∃ v m, T fin mode v s m ∧ FR fin false m x := by
    intro mode h f
    exact f.bind (f := fun z => match z.2 with | some e => pure ((z.1, xs), some e) | none => (rest none >>= fun u => pure ((z.1, u.1), u.2))) h.yields (fun y => hn y) fun _ _ => ⟨_, rfl⟩
  cases vis with
  | blank => exact (hr before).next zero
  | unexported => exact faults_panic _
  | exported =>
    cases tag with
    | none => exact one .elem hd fd
    | extension =>
      exact Dec.Faults.extension (f := fun z => match z.2 with | some e => if e = .eof then (rest (some .eof) >>= fun u => pure ((zero, u.1), u.2)) else pure ((z.1, xs), some e) | none => (rest none >>= fun u => pure ((z.1, u.1), u.2)))
        hd fd (fun y => hn y) (fun b e he => ⟨_, if_neg he⟩) (fun b => if_pos rfl) ((hr true).next zero)
    | optional =>
      refine (readBool_faults.bind (f := fun z => match z.2 with | some e => pure ((x', xs), some e) | none => if z.1 = true then (dec .elem >>= fun z => match z.2 with | some e => pure ((z.1, xs), some e) | none => (rest none >>= fun u => pure ((z.1, u.1), u.2)))
          else (rest (if before = true then some .eof else none) >>= fun u => pure ((zero, u.1), u.2)))
        readBool_does.yields (K := fun present fin m x => if present = true then F fin .elem m x ∨ ∃ v m', T fin .elem v m m' ∧ FR fin false m' x else FR fin before m x) (fun present => ?_) fun _ _ => ⟨_, rfl⟩).iff
        fun fin s x => or_congr Iff.rfl ⟨?_, ?_⟩
      · cases present with
        | true => exact one .elem hd fd
        | false => exact (hr before).next zero
      · rintro ⟨p, m, ⟨_, ⟨c, rfl, rfl⟩, rfl⟩, h⟩
        by_cases hc : c = 0
        · rw [if_neg (by simp [hc])] at h
          exact .inl ⟨m, by rw [hc]; rfl, h⟩
        · rw [if_pos (by simp [hc])] at h
          exact .inr ⟨c, m, hc, rfl, h⟩
      · rintro (⟨m, rfl, h⟩ | ⟨p, m, h1, rfl, h⟩)
        · exact ⟨false, m, ⟨[0], ⟨0, rfl, by simp⟩, rfl⟩, by rw [if_neg (by simp)]; exact h⟩
        · exact ⟨true, m, ⟨[p], ⟨p, rfl, by simp [h1]⟩, rfl⟩, by rw [if_pos rfl]; exact h⟩
    | variant =>
      refine (readByte_faults.bind (f := fun z => match z.2 with | some e => pure ((x', xs), some e) | none => (dec (.variant z.1.toNat) >>= fun z => match z.2 with | some e => pure ((z.1, xs), some e) | none => (rest none >>= fun u => pure ((z.1, u.1), u.2))))
        readByte_does.yields (fun idx => one (.variant idx.toNat) (hv _) (fv _)) fun _ _ => ⟨_, rfl⟩).iff fun fin s x => or_congr Iff.rfl ⟨?_, ?_⟩
      · rintro ⟨idx, m, ⟨_, rfl, rfl⟩, h⟩
        exact ⟨idx, m, rfl, h⟩
      · rintro ⟨idx, m, rfl, h⟩
        exact ⟨idx, m, ⟨[idx], rfl, rfl⟩, h⟩

/-! ### All types -/

theorem ptr_faults {α : Type} {p : Dec (α × Option Err)} {F : Err → Bytes → Failure → Prop} (h : p.Faults F) : (p >>= fun z => pure ((some z.1 : Option α), z.2)).Faults F :=
  h.map (fun _ => ⟨_, rfl⟩) fun _ _ => ⟨_, rfl⟩

theorem struct_faults {fs : Fields} {F : Err → Bool → Bytes → Failure → Prop}
    (h : ∀ before : Bool, (decodeFields chainDecoder fs (if before = true then some .eof else none) fs.zero).Faults fun fin => F fin before) :
    (decodeFields chainDecoder fs none fs.zero).Faults fun fin => F fin false := h false

mutual
theorem ty_faults : (t : Ty) → (m : Mode) → (decodeWith chainDecoder t m t.zero).Faults fun fin => t.Fails fin m
  | .basic b, m => (via_faults (t := .basic b) rfl m _ (basic_faults b) (readKind_faults b _)).iff fun fin s x => by
      show _ ↔ (m = .decode ∨ m = .elem ∨ m = .value ∧ b.Wide) ∧ b.Failure fin s x ∨ m = .value ∧ ¬ b.Wide ∧ Unsupported x ∨ m.Refuses x
      tauto
  | .named b, m => via_faults' (t := .named b) rfl m _ (readKind_faults b _)
  | .unsupported, m => via_faults' (t := .unsupported) rfl m _ (faults_fail _ _)
  | .bytes, m => via_faults (t := .bytes) rfl m _ (decodeBytes_faults none) elemBytes_faults
  | .chain c, m => chain_mode_faults c m
  | .ptr t, m => match m with
      | .elem => ptr_faults (ty_faults t .decode)
      | .variant i => ptr_faults (ty_faults t (.variant i))
      | .member => (ty_faults t .decode).map (fun _ => ⟨_, rfl⟩) fun _ _ => ⟨_, rfl⟩
      | .decode => ptr_faults (ty_faults t .value)
      | .value => ptr_faults (ty_faults t .value)
  | .slice t, m => via_faults' (t := .slice t) rfl m _ (decodeSlice_faults t.zero t.size (ty_does t .elem).yields (ty_faults t .elem))
  | .array n t, m => (via_faults' (t := .array n t) rfl m _ (decEach_faults (List.replicate n t.zero) (fun x hx => by
      rw [List.eq_of_mem_replicate hx]
      exact (ty_does t .elem).yields) fun x hx => by
      rw [List.eq_of_mem_replicate hx]
      exact ty_faults t .elem)).iff fun fin s x => by rw [List.length_replicate]; rfl
  | .map k e, m => via_faults' (t := .map k e) rfl m _ (decodeMap_faults (ty_does k .decode).yields (ty_does e .decode).yields (ty_faults k .decode) (ty_faults e .decode) _)
  | .struct fs, m => match m with
      | .elem => (via_faults' (t := .struct fs) rfl .elem _ (struct_faults (fields_faults fs))).iff fun _ _ x => ⟨fun h => h.elim (·.2) fun h => by simp [Mode.Refuses] at h, fun h => .inl ⟨.inr (.inl rfl), h⟩⟩
      | .member => (via_faults' (t := .struct fs) rfl .member _ (struct_faults (fields_faults fs))).iff fun _ _ x => ⟨fun h => h.elim (fun h => by simp at h) id, fun h => .inr h⟩
      | .decode => (via_faults' (t := .struct fs) rfl .decode _ (struct_faults (fields_faults fs))).iff fun _ _ x => ⟨fun h => h.elim (·.2) fun h => by simp [Mode.Refuses] at h, fun h => .inl ⟨.inl rfl, h⟩⟩
      | .value => (via_faults' (t := .struct fs) rfl .value _ (struct_faults (fields_faults fs))).iff fun _ _ x => ⟨fun h => h.elim (·.2) fun h => by simp [Mode.Refuses] at h, fun h => .inl ⟨.inr (.inr rfl), h⟩⟩
      | .variant i => by
        show Dec.Faults (if i ≥ fs.count then pure (fs.zero, some errVariantIndex) else match fs.clear (some i) fs.zero with
          | none => .panic _
          | some cleared => decodeMember chainDecoder fs i cleared) fun fin s x => fs.count ≤ i ∧ x = .err (.msg "abi: variant index out of bounds") ∨ i < fs.count ∧ (¬ fs.NilableBut (some i) ∧ x = .panic ∨ fs.NilableBut (some i) ∧ fs.FailsMember fin i s x)
        split
        · rename_i hi
          exact (faults_fail _ _).iff fun fin s x => ⟨fun h => .inl ⟨hi, h⟩, fun h => h.elim (·.2) fun h => absurd h.1 (by omega)⟩
        · rename_i hi
          rcases clearZero fs (some i) with ⟨h1, h2⟩ | ⟨h1, h2⟩
          · rw [h2]
            exact (member_faults fs i (by omega)).iff fun fin s x => ⟨fun h => .inr ⟨by omega, .inr ⟨h1, h⟩⟩, fun h => h.elim (fun h => absurd h.1 hi) fun h => h.2.elim (fun h => absurd h1 h.1) (·.2)⟩
          · rw [h2]
            exact (faults_panic _).iff fun fin s x => ⟨fun h => .inr ⟨by omega, .inl ⟨h1, h⟩⟩, fun h => h.elim (fun h => absurd h.1 hi) fun h => h.2.elim (·.2) fun h => absurd h.1 h1⟩
  | .ref i s a, m => match m with
      | .variant _ => faults_diverge.iff fun _ _ x => by simp [Ty.Fails]
      | .elem => faults_diverge.iff fun _ _ x => by simp [Ty.Fails]
      | .member => (faults_fail _ errVariantMember).iff fun _ _ x => by simp [Ty.Fails, Mode.Refuses, errVariantMember]
      | .decode => faults_diverge.iff fun _ _ x => by simp [Ty.Fails]
      | .value => faults_diverge.iff fun _ _ x => by simp [Ty.Fails]
theorem fields_faults : (fs : Fields) → (before : Bool) → (decodeFields chainDecoder fs (if before = true then some .eof else none) fs.zero).Faults fun fin => fs.Fails fin before
  | .nil, before => by
      cases before with
      | false => exact (faults_pure _).iff fun _ _ x => ⟨fun h => h.elim, fun h => nomatch h.1⟩
      | true => exact (faults_fail _ _).iff fun _ _ x => ⟨fun h => ⟨rfl, h⟩, fun h => h.2⟩
  | .cons vis tag t fs, before => by
      have h1 := ty_does t .elem
      have h2 := fun i => ty_does t (.variant i)
      have h3 := ty_faults t .elem
      have h4 := fun i => ty_faults t (.variant i)
      rw [← alloc_zero_elem] at h1 h3
      simp only [← alloc_zero_variant] at h2 h4
      have := decodeField_faults vis tag (t.alloc t.zero) t.zero (dec := fun m => decodeWith chainDecoder t m (t.alloc t.zero)) (T := fun fin m => t.Gives fin m) (S := t.Stops) (F := fun fin m => t.Fails fin m) h1 h2 h3 h4 fs.zero
        (rest := fun err => decodeFields chainDecoder fs err fs.zero) (FR := fun fin => fs.Fails fin) (fields_faults fs) before
      cases vis <;> cases tag <;> exact this
theorem member_faults : (fs : Fields) → (i : Nat) → i < fs.count → (decodeMember chainDecoder fs i fs.zero).Faults fun fin => fs.FailsMember fin i
  | .nil, _, h => absurd h (Nat.not_lt_zero _)
  | .cons vis tag t fs, 0, _ => by
      have : (decodeWith chainDecoder t .member t.zero >>= fun z => match z.2 with
          | some e => pure (((z.1, fs.zero) : t.Val × fs.Val), some e)
          | none => if vis = .exported then pure ((z.1, fs.zero), none) else .panic "reflect: using value obtained using unexported field").Faults
          (fun fin s x => t.Fails fin .member s x ∨ ∃ v r, t.Gives fin .member v s r ∧ vis ≠ .exported ∧ x = .panic) := by
        refine (ty_faults t .member).bind (f := fun z => match z.2 with
          | some e => pure (((z.1, fs.zero) : t.Val × fs.Val), some e)
          | none => if vis = .exported then pure ((z.1, fs.zero), none) else .panic "reflect: using value obtained using unexported field") (ty_does t .member).yields (K := fun _ _ _ x => vis ≠ .exported ∧ x = .panic) (fun b => ?_) fun _ _ => ⟨_, rfl⟩
        show Dec.Faults (if vis = .exported then _ else _) _
        split
        · rename_i hv
          exact (faults_pure _).iff fun _ _ x => ⟨fun h => h.elim, fun h => absurd hv h.1⟩
        · rename_i hv
          exact (faults_panic _).iff fun _ _ x => ⟨fun h => ⟨hv, h⟩, fun h => h.2⟩
      exact this.iff fun fin s x => or_congr Iff.rfl ⟨fun ⟨v, r, h1, h2, h3⟩ => ⟨h2, h3, v, r, h1⟩, fun ⟨h2, h3, v, r, h1⟩ => ⟨v, r, h1, h2, h3⟩⟩
  | .cons vis tag t fs, n + 1, h => (member_faults fs n (Nat.lt_of_succ_lt_succ h)).map (fun _ => ⟨_, rfl⟩) fun _ _ => ⟨_, rfl⟩
end

end Verif
