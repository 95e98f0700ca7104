import Verif.Lemmas.RecursiveSim
import Verif.Lemmas.AbiTerm
/-! # Decoding a recursive type ends when references are guarded -/
namespace Verif

/-- Does not recurse without bound on fewer than N bytes. -/
def Dec.Halt {α : Type} (N : Nat) (p : Dec α) : Prop := ∀ fin bs, bs.length < N → p.runE fin bs ≠ .diverge

theorem Dec.Halt.mono {α : Type} {N M : Nat} {p : Dec α} (h : p.Halt N) (hm : M ≤ N) : p.Halt M := fun fin bs hl => h fin bs (Nat.lt_of_lt_of_le hl hm)
theorem Dec.Safe.halt {α : Type} {p : Dec α} (h : p.Safe true) (N : Nat) : p.Halt N := fun fin bs _ => (h.run fin bs).1
theorem Dec.Halt.pure {α : Type} {N : Nat} (a : α) : (Pure.pure a : Dec α).Halt N := fun _ _ _ h => nomatch h
theorem Dec.Halt.panic {α : Type} {N : Nat} (w : String) : (.panic w : Dec α).Halt N := fun _ _ _ h => nomatch h

theorem Dec.Halt.bind {α β : Type} {N : Nat} {p : Dec α} {g : α → Dec β} (hp : p.Halt N) (hg : ∀ a, (g a).Halt N) : (p >>= g).Halt N := by
  intro fin bs hl h
  rw [Dec.runE_bind] at h
  cases hr : p.runE fin bs with
  | ok a r =>
    rw [hr] at h
    exact hg a fin r (Nat.lt_of_le_of_lt (shorter hr) hl) h
  | panic w => rw [hr] at h; cases h
  | diverge => exact hp fin bs hl hr

/-- Success takes a byte. -/
def Dec.Eats {α : Type} (p : Dec (α × Option Err)) : Prop := ∀ fin bs a r, p.runE fin bs = .ok (a, none) r → r.length < bs.length

theorem Dec.Halt.after {α β : Type} {N : Nat} {p : Dec (α × Option Err)} {g : α × Option Err → Dec β} (hp : p.Halt (N + 1)) (he : p.Eats)
    (h1 : ∀ a e, (g (a, some e)).Halt (N + 1)) (h2 : ∀ a, (g (a, none)).Halt N) : (p >>= g).Halt (N + 1) := by
  intro fin bs hl h
  rw [Dec.runE_bind] at h
  cases hr : p.runE fin bs with
  | ok a r =>
    rw [hr] at h
    obtain ⟨a, _ | e⟩ := a
    · have := he fin bs a r hr
      exact h2 a fin r (by omega) h
    · exact h1 a e fin r (Nat.lt_of_le_of_lt (shorter hr) hl) h
  | panic w => rw [hr] at h; cases h
  | diverge => exact hp fin bs hl hr

theorem Dec.Eats.bind {α β : Type} {p : Dec (α × Option Err)} {g : α × Option Err → Dec (β × Option Err)} (hp : p.Eats)
    (hg : ∀ a e fin bs b r, (g (a, some e)).runE fin bs ≠ .ok (b, none) r) : (p >>= g).Eats := by
  intro fin bs b r h
  rw [Dec.runE_bind] at h
  cases hr : p.runE fin bs with
  | ok a r' =>
    rw [hr] at h
    obtain ⟨a, _ | e⟩ := a
    · exact Nat.lt_of_le_of_lt (shorter h) (hp fin bs a r' hr)
    · exact absurd h (hg a e fin r' b r)
  | panic w => rw [hr] at h; cases h
  | diverge => rw [hr] at h; cases h

theorem Dec.Eats.last {β γ : Type} {p : Dec γ} {g : γ → Dec (β × Option Err)} (hg : ∀ a, (g a).Eats) : (p >>= g : Dec (β × Option Err)).Eats := by
  intro fin bs b r h
  rw [Dec.runE_bind] at h
  cases hr : p.runE fin bs with
  | ok a r' =>
    rw [hr] at h
    exact Nat.lt_of_lt_of_le (hg a fin r' b r h) (shorter hr)
  | panic w => rw [hr] at h; cases h
  | diverge => rw [hr] at h; cases h

theorem Dec.Eats.error {α : Type} (a : α) (e : Err) : (Pure.pure (a, some e) : Dec (α × Option Err)).Eats := fun _ _ _ _ h => nomatch h
theorem Dec.Eats.panic {α : Type} (w : String) : (.panic w : Dec (α × Option Err)).Eats := fun _ _ _ _ h => nomatch h
theorem Dec.Eats.diverge {α : Type} : (.diverge : Dec (α × Option Err)).Eats := fun _ _ _ _ h => nomatch h
theorem error_ne {α : Type} (a : α) (e : Err) (fin : Err) (bs : Bytes) (b : α) (r : Bytes) : (Pure.pure (a, some e) : Dec (α × Option Err)).runE fin bs ≠ .ok (b, none) r := fun h => nomatch h

theorem varuint_eats : readVaruint.Eats := fun _ _ _ _ h => varuint_consumes h
theorem bool_eats : readBool.Eats := fun _ _ _ _ h => bool_consumes h
theorem byte_eats : readByte.Eats := fun fin bs a r h => by rw [readByte_inv fin bs r a h]; simp

theorem basic_eats (b : Basic) : b.read.Eats := fun fin _ _ _ h =>
  strict_consumes (basic_strict true b) fin (by
    cases b
    case string => exact ⟨_, _, readString_empty fin⟩
    case int => exact ⟨_, _, readVarintD_empty fin⟩
    case uint => exact ⟨_, _, readVaruint_empty fin⟩
    all_goals exact ⟨_, _, rfl⟩) h

theorem kind_eats (b : Basic) (old : b.Val) : (b.readKind old).Eats := fun fin _ _ _ h =>
  strict_consumes (kind_strict true b old) fin (by cases b <;> exact ⟨_, _, rfl⟩) h

theorem chain_eats (c : ChainTy) (old : c.Val) : (c.unmarshal old).Eats := fun fin _ _ _ h =>
  strict_consumes (chain_strict c old) fin (by cases c <;> exact ⟨_, _, rfl⟩) h

/-! ### Loops -/

theorem decEach_halt {α : Type} {N : Nat} {d : α → Dec (α × Option Err)} (h : ∀ x, (d x).Halt N) (xs : List α) : (decEach d xs).Halt N := by
  induction xs with
  | nil => exact .pure _
  | cons x xs ih =>
    refine (h x).bind ?_
    rintro ⟨y, _ | e⟩
    · exact ih.bind fun _ => .pure _
    · exact .pure _

theorem makeSlice_halt {α β : Type} {N : Nat} (zero : α) (size : Nat) (l : UInt64) (k : List α → Dec β) (h : ∀ xs, (k xs).Halt N) : (makeSlice zero size l k).Halt N := by
  unfold makeSlice
  split
  · exact .panic _
  · split
    · exact .panic _
    · exact h _

theorem decodeSlice_halt {α : Type} {N : Nat} (zero : α) (size : Nat) {d : α → Dec (α × Option Err)} (h : ∀ x, (d x).Halt N) (old : Option (List α)) :
    (decodeSlice zero size d old).Halt (N + 1) := by
  refine ((readVaruint_safe true).halt _).after varuint_eats (fun _ e => .pure _) fun l => ?_
  dsimp only
  split
  · exact makeSlice_halt _ _ _ _ fun xs => (decEach_halt h xs).bind fun _ => .pure _
  · exact (decEach_halt h _).bind fun _ => .pure _

theorem mapLoop_halt {α β : Type} [DecidableEq α] {N : Nat} {dk : Dec (α × Option Err)} {dv : Dec (β × Option Err)} (hk : dk.Halt N) (hv : dv.Halt N) (n : Nat) (m : List (α × β)) :
    (mapLoop dk dv n m).Halt N := by
  induction n generalizing m with
  | zero => exact .pure _
  | succ n ih =>
    refine hk.bind ?_
    rintro ⟨k, _ | e⟩
    · refine hv.bind ?_
      rintro ⟨v, _ | e⟩
      · exact ih _
      · exact .pure _
    · exact .pure _

theorem decodeMap_halt {α β : Type} [DecidableEq α] {N : Nat} {dk : Dec (α × Option Err)} {dv : Dec (β × Option Err)} (hk : dk.Halt N) (hv : dv.Halt N) (old : Option (List (α × β))) :
    (decodeMap dk dv old).Halt (N + 1) := by
  refine ((readVaruint_safe true).halt _).after varuint_eats (fun _ e => .pure _) fun l => ?_
  exact (mapLoop_halt hk hv _ _).bind fun _ => .pure _

theorem decodeBytes_safe (old : Option Bytes) : (decodeBytes old).Safe true := by
  unfold decodeBytes
  safe [readVaruint_safe true, readBytes_safe _ _ (.inl rfl)]

theorem kind_safe (b : Basic) (old : b.Val) : (b.readKind old).Safe true := by
  cases b <;> unfold Basic.readKind <;> safe [readUint64_safe true, readUint32_safe true, readInt64_safe true, readInt32_safe true]

/-- One field and the rest: `N` bounds what the rest can take, `M` what the field can take after a byte. -/
theorem decodeField_halt {α β : Type} {N : Nat} (vis : Vis) (tag : Tag) (x x' z : α) (dec : Mode → Dec (α × Option Err)) (xs : β) (err : Option Err) (rest : Option Err → Dec (β × Option Err))
    (h1 : tag = .none ∨ tag = .extension → (dec .elem).Halt (N + 1)) (h2 : tag = .optional → (dec .elem).Halt N) (h3 : tag = .variant → ∀ i, (dec (.variant i)).Halt N)
    (hr : ∀ err, (rest err).Halt N) (hr' : (∀ err, (rest err).Halt (N + 1)) ∨ (vis = .exported ∧ tag ≠ .extension ∧ (tag = .optional ∨ tag = .variant ∨ (dec .elem).Eats))) :
    (decodeField vis tag x x' z dec xs err rest).Halt (N + 1) := by
  have next : ∀ (err : Option Err) (y : α), Dec.Halt N (do let (ys, err) ← rest err; Pure.pure (((y, ys) : α × β), err)) := fun err y => (hr err).bind fun _ => .pure _
  have next' : (∀ err, (rest err).Halt (N + 1)) → ∀ (err : Option Err) (y : α), Dec.Halt (N + 1) (do let (ys, err) ← rest err; Pure.pure (((y, ys) : α × β), err)) := fun h err y => (h err).bind fun _ => .pure _
  unfold decodeField
  cases vis with
  | blank =>
    rcases hr' with h | ⟨h, _⟩
    · exact next' h _ x
    · cases h
  | unexported => exact .panic _
  | exported =>
    cases tag with
    | none =>
      rcases hr' with h | ⟨_, _, h | h | h⟩
      · refine (h1 (.inl rfl)).bind ?_
        rintro ⟨y, _ | e⟩
        · exact next' h _ y
        · exact .pure _
      · cases h
      · cases h
      · exact (h1 (.inl rfl)).after h (fun _ _ => .pure _) (next none)
    | optional =>
      refine ((readBool_safe true).halt _).after bool_eats (fun _ _ => .pure _) fun p => ?_
      dsimp only
      split
      · refine (h2 rfl).bind ?_
        rintro ⟨y, _ | e⟩
        · exact next _ y
        · exact .pure _
      · exact next _ z
    | extension =>
      rcases hr' with h | ⟨_, h, _⟩
      · refine (h1 (.inr rfl)).bind ?_
        rintro ⟨y, _ | e⟩
        · exact next' h _ y
        · dsimp only
          split
          · exact next' h _ z
          · exact .pure _
      · exact absurd rfl h
    | variant =>
      refine ((readByte_safe true).halt _).after byte_eats (fun _ _ => .pure _) fun i => ?_
      refine (h3 rfl _).bind ?_
      rintro ⟨y, _ | e⟩
      · exact next _ y
      · exact .pure _

theorem decodeField_eats {α β : Type} (vis : Vis) (tag : Tag) (x x' z : α) (dec : Mode → Dec (α × Option Err)) (xs : β) (err : Option Err) (rest : Option Err → Dec (β × Option Err))
    (h : (vis = .exported ∧ tag ≠ .extension ∧ (tag = .optional ∨ tag = .variant ∨ (dec .elem).Eats)) ∨ ∀ err, (rest err).Eats) :
    (decodeField vis tag x x' z dec xs err rest).Eats := by
  rcases h with ⟨rfl, h1, h2⟩ | h
  · unfold decodeField
    cases tag with
    | none =>
      rcases h2 with h | h | h
      · cases h
      · cases h
      · exact h.bind fun _ _ => error_ne _ _
    | optional => exact bool_eats.bind fun _ _ => error_ne _ _
    | extension => exact absurd rfl h1
    | variant => exact byte_eats.bind fun _ _ => error_ne _ _
  · have next : ∀ (err : Option Err) (y : α), Dec.Eats (do let (ys, err) ← rest err; Pure.pure (((y, ys) : α × β), err)) := fun err y => (h err).bind fun _ _ => error_ne _ _
    unfold decodeField
    cases vis with
    | blank => exact next _ x
    | unexported => exact .panic _
    | exported =>
      cases tag with
      | none =>
        refine .last ?_
        rintro ⟨y, _ | e⟩
        · exact next _ y
        · exact .error _ _
      | optional =>
        refine .last ?_
        rintro ⟨p, _ | e⟩
        · dsimp only
          split
          · refine .last ?_
            rintro ⟨y, _ | e⟩
            · exact next _ y
            · exact .error _ _
          · exact next _ z
        · exact .error _ _
      | extension =>
        refine .last ?_
        rintro ⟨y, _ | e⟩
        · exact next _ y
        · dsimp only
          split
          · exact next _ z
          · exact .error _ _
      | variant =>
        refine .last ?_
        rintro ⟨p, _ | e⟩
        · refine .last ?_
          rintro ⟨y, _ | e⟩
          · exact next _ y
          · exact .error _ _
        · exact .error _ _

theorem via_halt {N : Nat} {t : Ty} (ht : t.isChain = false) (mode : Mode) (old : t.Val) {fast slow : t.Val → Dec (t.Val × Option Err)}
    (hf : ∀ x, (fast x).Halt N) (hs : ∀ x, (slow x).Halt N) : (viaDecFn chainDecoder t mode old fast slow).Halt N := by
  cases mode with
  | value => exact hs old
  | variant _ => exact .pure _
  | member => exact .pure _
  | decode => unfold viaDecFn; rw [chainDecoder_else t ht]; exact hf old
  | elem => unfold viaDecFn; rw [chainDecoder_else t ht]; exact hf old

theorem via_eats {t : Ty} (ht : t.isChain = false) (mode : Mode) (old : t.Val) {fast slow : t.Val → Dec (t.Val × Option Err)}
    (hf : ∀ x, (fast x).Eats) (hs : ∀ x, (slow x).Eats) : (viaDecFn chainDecoder t mode old fast slow).Eats := by
  cases mode with
  | value => exact hs old
  | variant _ => exact .error _ _
  | member => exact .error _ _
  | decode => unfold viaDecFn; rw [chainDecoder_else t ht]; exact hf old
  | elem => unfold viaDecFn; rw [chainDecoder_else t ht]; exact hf old

theorem chainMode_halt (N : Nat) (c : ChainTy) (m : Mode) (old : c.Val) : (decodeWith chainDecoder (.chain c) m old).Halt N := by
  have h : ∀ v : c.Val, (c.unmarshal v).Halt N := fun v => (chain_safe c (.inl rfl) v).halt N
  cases m with
  | «variant» _ => exact h old
  | member => exact .pure _
  | _ => rw [decode_chain c _ (by unfold Mode.Plain; simp)]; exact h old

theorem chainMode_eats (c : ChainTy) (m : Mode) (hm : m.Plain) (old : c.Val) : (decodeWith chainDecoder (.chain c) m old).Eats := by
  rw [decode_chain c m hm]
  exact chain_eats c old

theorem slice_eats {α : Type} (z : α) (size : Nat) (d : α → Dec (α × Option Err)) (old : Option (List α)) : (decodeSlice z size d old).Eats :=
  varuint_eats.bind fun _ _ => error_ne _ _
theorem map_eats {α β : Type} [DecidableEq α] (dk : Dec (α × Option Err)) (dv : Dec (β × Option Err)) (old : Option (List (α × β))) : (decodeMap dk dv old).Eats :=
  varuint_eats.bind fun _ _ => error_ne _ _

mutual
/-- Stated for the type after substitution, so that the references may have been replaced by anything. -/
theorem ty_eats (σ : Nat → Nat → Nat → Ty) : (t : Ty) → t.Consumes → (m : Mode) → m.Plain → (old : (t.subst σ).Val) → (decodeWith chainDecoder (t.subst σ) m old).Eats
  | .basic b, _, m, _, old => via_eats (t := .basic b) rfl m old (fun _ => basic_eats b) (kind_eats b)
  | .named b, _, m, _, old => via_eats (t := .named b) rfl m old (kind_eats b) (kind_eats b)
  | .unsupported, _, m, _, old => via_eats (t := .unsupported) rfl m old (fun _ => .error _ _) (fun _ => .error _ _)
  | .bytes, _, m, _, old => via_eats (t := .bytes) rfl m old (fun _ => varuint_eats.bind fun _ _ => error_ne _ _) (slice_eats (0 : UInt8) _ _)
  | .chain c, _, m, hm, old => chainMode_eats c m hm old
  | .ptr t, h, m, hm, old => by
    have ih := ty_eats σ t h
    have step : ∀ m, m.Plain → ∀ x : Option (t.subst σ).Val, Dec.Eats (do
        let (x, err) ← decodeWith chainDecoder (t.subst σ) m (x.getD (t.subst σ).zero)
        Pure.pure ((some x : Option (t.subst σ).Val), err)) := fun m hm x => (ih m hm _).bind fun _ _ => error_ne _ _
    rcases hm with rfl | rfl | rfl
    · exact step .value (.inr (.inr rfl)) old
    · exact step .decode (.inl rfl) old
    · exact step .value (.inr (.inr rfl)) old
  | .slice t, _, m, _, old => via_eats (t := .slice (t.subst σ)) rfl m old (slice_eats (t.subst σ).zero _ _) (slice_eats (t.subst σ).zero _ _)
  | .map k e, _, m, _, old => via_eats (t := .map k (e.subst σ)) rfl m old (map_eats (α := k.Val) (β := (e.subst σ).Val) _ _) (map_eats (α := k.Val) (β := (e.subst σ).Val) _ _)
  | .struct fs, h, m, hm, old => by
    have ih := fields_eats σ fs h none
    rcases hm with rfl | rfl | rfl
    · exact via_eats (t := .struct (fs.subst σ)) rfl .decode old ih ih
    · exact via_eats (t := .struct (fs.subst σ)) rfl .elem old ih ih
    · exact via_eats (t := .struct (fs.subst σ)) rfl .value old ih ih
theorem fields_eats (σ : Nat → Nat → Nat → Ty) : (fs : Fields) → fs.Consumes → (err : Option Err) → (old : (fs.subst σ).Val) → (decodeFields chainDecoder (fs.subst σ) err old).Eats
  | .cons vis tag t fs, h, err, old => by
    obtain ⟨x, xs⟩ : (t.subst σ).Val × (fs.subst σ).Val := old
    refine decodeField_eats vis tag x ((t.subst σ).alloc x) (t.subst σ).zero (fun m => decodeWith chainDecoder (t.subst σ) m ((t.subst σ).alloc x)) xs err
      (fun err => decodeFields chainDecoder (fs.subst σ) err xs) ?_
    rcases h with ⟨h1, h2, h3⟩ | h
    · refine .inl ⟨h1, h2, ?_⟩
      rcases h3 with h | h | h
      · exact .inl h
      · exact .inr (.inl h)
      · exact .inr (.inr (ty_eats σ t h .elem (.inr (.inl rfl)) _))
    · exact .inr fun err => fields_eats σ fs h err xs
end

/-- Decoding into what is put in the place of references ends on fewer than A bytes, and on fewer than B bytes as a variant. -/
structure RefHalt (σ : Nat → Nat → Nat → Ty) (A B : Nat) : Prop where
  plain : ∀ i s a m old, (∀ j, m ≠ .variant j) → (decodeWith chainDecoder (σ i s a) m old).Halt A
  variant : ∀ i s a j old, (decodeWith chainDecoder (σ i s a) (.variant j) old).Halt B
  le : B ≤ A
  ge : A ≤ B + 1

theorem basic_halt (N : Nat) (b : Basic) : b.read.Halt N := (basic_safe b (.inl rfl)).halt N
theorem kind_halt (N : Nat) (b : Basic) (old : b.Val) : (b.readKind old).Halt N := (kind_safe b old).halt N

theorem bytes_halt (N : Nat) (m : Mode) (old : Option Bytes) : (decodeWith chainDecoder .bytes m old).Halt N :=
  via_halt (t := .bytes) rfl m old (fun x => (decodeBytes_safe x).halt N)
    (fun x => (decodeSlice_halt (α := UInt8) 0 1 (fun x => via_halt (t := .basic .u8) rfl .elem x (fun _ => (readUint8_safe true).halt N) (fun x => .pure _)) x).mono (Nat.le_succ N))

theorem struct_halt {N : Nat} (fs : Fields) (m : Mode) (hm : ∀ j, m ≠ .variant j) (old : fs.Val) (h : ∀ x, (decodeFields chainDecoder fs none x).Halt N) :
    (decodeWith chainDecoder (.struct fs) m old).Halt N := by
  cases m with
  | «variant» j => exact absurd rfl (hm j)
  | decode => exact via_halt (t := .struct fs) rfl .decode old h h
  | elem => exact via_halt (t := .struct fs) rfl .elem old h h
  | value => exact via_halt (t := .struct fs) rfl .value old h h
  | member => exact via_halt (t := .struct fs) rfl .member old h h

theorem ptr_halt {N : Nat} (t : Ty) (m : Mode) (hm : ∀ j, m ≠ .variant j) (old : Option t.Val) (h : ∀ m x, (∀ j, m ≠ .variant j) → (decodeWith chainDecoder t m x).Halt N) :
    (decodeWith chainDecoder (.ptr t) m old).Halt N := by
  have step : ∀ m, (∀ j, m ≠ .variant j) → ∀ x : Option t.Val, Dec.Halt N (do
      let (x, err) ← decodeWith chainDecoder t m (x.getD t.zero)
      Pure.pure ((some x : Option t.Val), err)) := fun m hm x => (h m _ hm).bind fun _ => .pure _
  cases m with
  | «variant» j => exact absurd rfl (hm j)
  | decode => exact step .value (fun _ h => nomatch h) old
  | value => exact step .value (fun _ h => nomatch h) old
  | elem => exact step .decode (fun _ h => nomatch h) old
  | member =>
    refine (h .decode t.zero (fun _ h => nomatch h)).bind ?_
    rintro ⟨y, _ | e⟩
    · exact .pure _
    · exact .pure _

theorem variant_halt {N : Nat} (fs : Fields) (j : Nat) (old : fs.Val) (h : ∀ x, (decodeMember chainDecoder fs j x).Halt N) :
    (decodeWith chainDecoder (.struct fs) (.variant j) old).Halt N := by
  show Dec.Halt N (if j ≥ fs.count then Pure.pure (old, some errVariantIndex) else match fs.clear (some j) old with
    | none => .panic "reflect: call of reflect.Value.IsNil on a value that cannot be nil, or Set on an unexported field"
    | some cleared => decodeMember chainDecoder fs j cleared)
  split
  · exact .pure _
  · split
    · exact .panic _
    · exact h _

mutual
theorem subst_whole (σ : Nat → Nat → Nat → Ty) : (t : Ty) → t.Whole → t.subst σ = t
  | .basic _, _ => rfl
  | .named _, _ => rfl
  | .unsupported, _ => rfl
  | .bytes, _ => rfl
  | .chain _, _ => rfl
  | .ptr t, h => congrArg Ty.ptr (subst_whole σ t h)
  | .slice t, h => congrArg Ty.slice (subst_whole σ t h)
  | .array n t, h => congrArg (Ty.array n) (subst_whole σ t h)
  | .map k e, h => congrArg (Ty.map k) (subst_whole σ e h.2)
  | .struct fs, h => congrArg Ty.struct (substs_whole σ fs h)
theorem substs_whole (σ : Nat → Nat → Nat → Ty) : (fs : Fields) → fs.Whole → fs.subst σ = fs
  | .nil, _ => rfl
  | .cons vis tag t fs, h => (congrArg (Fields.cons vis tag · _) (subst_whole σ t h.1)).trans (congrArg (Fields.cons vis tag t) (substs_whole σ fs h.2))
end

mutual
/-- Keys of maps mention no declared type. -/
def Ty.KeysOk : Ty → Prop
  | .ptr t => t.KeysOk
  | .slice t => t.KeysOk
  | .array _ t => t.KeysOk
  | .map k e => k.Whole ∧ k.KeysOk ∧ e.KeysOk
  | .struct fs => fs.KeysOk
  | _ => True
def Fields.KeysOk : Fields → Prop
  | .nil => True
  | .cons _ _ t fs => t.KeysOk ∧ fs.KeysOk
end

mutual
theorem Ty.Whole.keys : (t : Ty) → t.Whole → t.KeysOk
  | .basic _, _ => trivial
  | .named _, _ => trivial
  | .unsupported, _ => trivial
  | .bytes, _ => trivial
  | .chain _, _ => trivial
  | .ptr t, h => Ty.Whole.keys t h
  | .slice t, h => Ty.Whole.keys t h
  | .array _ t, h => Ty.Whole.keys t h
  | .map k e, h => ⟨h.1, Ty.Whole.keys k h.1, Ty.Whole.keys e h.2⟩
  | .struct fs, h => Fields.Whole.keys fs h
theorem Fields.Whole.keys : (fs : Fields) → fs.Whole → fs.KeysOk
  | .nil, _ => trivial
  | .cons _ _ t fs, h => ⟨Ty.Whole.keys t h.1, Fields.Whole.keys fs h.2⟩
end

mutual
theorem Ty.RefsOk.keys {D : Decls} : (t : Ty) → t.RefsOk D → t.KeysOk
  | .basic _, _ => trivial
  | .named _, _ => trivial
  | .unsupported, _ => trivial
  | .bytes, _ => trivial
  | .chain _, _ => trivial
  | .ptr t, h => Ty.RefsOk.keys t h
  | .slice t, h => Ty.RefsOk.keys t h
  | .array _ t, h => Ty.RefsOk.keys t h
  | .map k e, h => ⟨h.1, Ty.Whole.keys k h.1, Ty.RefsOk.keys e h.2⟩
  | .struct fs, h => Fields.RefsOk.keys fs h
  | .ref _ _ _, _ => trivial
theorem Fields.RefsOk.keys {D : Decls} : (fs : Fields) → fs.RefsOk D → fs.KeysOk
  | .nil, _ => trivial
  | .cons _ _ t fs, h => ⟨Ty.RefsOk.keys t h.1, Fields.RefsOk.keys fs h.2⟩
end

theorem trivial_halt (N : Nat) : RefHalt (fun _ _ _ => .basic .u8) N N where
  plain _ _ _ m old _ := via_halt (t := .basic .u8) rfl m old (fun _ => basic_halt _ .u8) (kind_halt _ .u8)
  variant _ _ _ _ _ := .pure _
  le := Nat.le_refl _
  ge := Nat.le_succ _

mutual
/-- Types with references anywhere -/
theorem ty_halt {σ : Nat → Nat → Nat → Ty} {A B : Nat} (h : RefHalt σ A B) : (t : Ty) → t.KeysOk → (∀ m old, (∀ j, m ≠ .variant j) → (decodeWith chainDecoder (t.subst σ) m old).Halt A) ∧
    ∀ j old, (decodeWith chainDecoder (t.subst σ) (.variant j) old).Halt B
  | .basic b, _ => ⟨fun m old _ => via_halt (t := .basic b) rfl m old (fun _ => basic_halt _ b) (kind_halt _ b), fun j old => .pure _⟩
  | .named b, _ => ⟨fun m old _ => via_halt (t := .named b) rfl m old (kind_halt _ b) (kind_halt _ b), fun j old => .pure _⟩
  | .unsupported, _ => ⟨fun m old _ => via_halt (t := .unsupported) rfl m old (fun _ => .pure _) (fun _ => .pure _), fun j old => .pure _⟩
  | .bytes, _ => ⟨fun m old _ => bytes_halt _ m old, fun j old => .pure _⟩
  | .chain c, _ => ⟨fun m old _ => chainMode_halt _ c m old, fun j old => chainMode_halt _ c _ old⟩
  | .ptr t, hk => by
    have ih := ty_halt h t hk
    exact ⟨fun m old hm => ptr_halt (t.subst σ) m hm old ih.1, fun j old => (ih.2 j _).bind fun _ => .pure _⟩
  | .slice t, hk => by
    have ih := fun old => (decodeSlice_halt (t.subst σ).zero (t.subst σ).size (fun x => (ty_halt h t hk).1 .elem x (fun _ h => nomatch h)) old).mono (Nat.le_succ A)
    exact ⟨fun m old hm => via_halt (t := .slice (t.subst σ)) rfl m old ih ih, fun j old => .pure _⟩
  | .array n t, hk => by
    have ih := fun old => decEach_halt (fun x => (ty_halt h t hk).1 .elem x (fun _ h => nomatch h)) old
    exact ⟨fun m old hm => via_halt (t := .array n (t.subst σ)) rfl m old ih ih, fun j old => .pure _⟩
  | .map k e, hk => by
    have h' := (ty_halt (trivial_halt A) k hk.2.1).1
    rw [subst_whole _ k hk.1] at h'
    have h' := h' .decode k.zero (fun _ h => nomatch h)
    have ih := fun old => (decodeMap_halt (α := k.Val) h' ((ty_halt h e hk.2.2).1 .decode (e.subst σ).zero (fun _ h => nomatch h)) old).mono (Nat.le_succ A)
    exact ⟨fun m old hm => via_halt (t := .map k (e.subst σ)) rfl m old ih ih, fun j old => .pure _⟩
  | .struct fs, hk => by
    have ih := fields_halt h fs hk none
    exact ⟨fun m old hm => struct_halt (fs.subst σ) m hm old ih, fun j old => variant_halt (fs.subst σ) j old fun x => (member_halt h fs hk j x).mono h.le⟩
  | .ref i s a, _ => ⟨fun m old hm => h.plain i s a m old hm, fun j old => h.variant i s a j old⟩
theorem fields_halt {σ : Nat → Nat → Nat → Ty} {A B : Nat} (h : RefHalt σ A B) : (fs : Fields) → fs.KeysOk → (err : Option Err) → (old : (fs.subst σ).Val) → (decodeFields chainDecoder (fs.subst σ) err old).Halt A
  | .nil, _, _, _ => .pure _
  | .cons vis tag t fs, hk, err, old => by
    obtain ⟨x, xs⟩ : (t.subst σ).Val × (fs.subst σ).Val := old
    have h1 := ty_halt h t hk.1
    have h2 := fun err => fields_halt h fs hk.2 err xs
    show (decodeField vis tag x ((t.subst σ).alloc x) (t.subst σ).zero (fun m => decodeWith chainDecoder (t.subst σ) m ((t.subst σ).alloc x)) xs err
      (fun err => decodeFields chainDecoder (fs.subst σ) err xs)).Halt A
    cases A with
    | zero => intro _ _ h; omega
    | succ A =>
      have := h.ge
      exact decodeField_halt vis tag x _ _ _ xs err _ (fun _ => h1.1 .elem _ (fun _ h => nomatch h)) (fun _ => (h1.1 .elem _ (fun _ h => nomatch h)).mono (Nat.le_succ A))
        (fun _ i => (h1.2 i _).mono (by omega)) (fun err => (h2 err).mono (Nat.le_succ A)) (.inl h2)
theorem member_halt {σ : Nat → Nat → Nat → Ty} {A B : Nat} (h : RefHalt σ A B) : (fs : Fields) → fs.KeysOk → (n : Nat) → (old : (fs.subst σ).Val) → (decodeMember chainDecoder (fs.subst σ) n old).Halt A
  | .nil, _, _, _ => .pure _
  | .cons vis tag t fs, hk, 0, old => by
    refine ((ty_halt h t hk.1).1 .member _ (fun _ h => nomatch h)).bind ?_
    rintro ⟨y, _ | e⟩
    · dsimp only
      split
      · exact .pure _
      · exact .panic _
    · exact .pure _
  | .cons vis tag t fs, hk, n + 1, old => (member_halt h fs hk.2 n _).bind fun _ => .pure _
end

mutual
/-- Types whose references are all behind a byte -/
theorem guarded_halt {σ : Nat → Nat → Nat → Ty} {A B : Nat} (h : RefHalt σ A B) : (t : Ty) → t.KeysOk → t.Guarded → ∀ m old, (∀ j, m ≠ .variant j) →
    (decodeWith chainDecoder (t.subst σ) m old).Halt (B + 1)
  | .basic b, _, _, m, old, _ => via_halt (t := .basic b) rfl m old (fun _ => basic_halt _ b) (kind_halt _ b)
  | .named b, _, _, m, old, _ => via_halt (t := .named b) rfl m old (kind_halt _ b) (kind_halt _ b)
  | .unsupported, _, _, m, old, _ => via_halt (t := .unsupported) rfl m old (fun _ => .pure _) (fun _ => .pure _)
  | .bytes, _, _, m, old, _ => bytes_halt _ m old
  | .chain c, _, _, m, old, _ => chainMode_halt _ c m old
  | .ptr t, hk, hg, m, old, hm => ptr_halt (t.subst σ) m hm old (guarded_halt h t hk hg)
  | .slice t, hk, _, m, old, hm => by
    have ih := fun old => (decodeSlice_halt (t.subst σ).zero (t.subst σ).size (fun x => (ty_halt h t hk).1 .elem x (fun _ h => nomatch h)) old).mono (Nat.succ_le_succ h.le)
    exact via_halt (t := .slice (t.subst σ)) rfl m old ih ih
  | .array n t, hk, hg, m, old, hm => by
    have ih := fun old => decEach_halt (fun x => guarded_halt h t hk hg .elem x (fun _ h => nomatch h)) old
    exact via_halt (t := .array n (t.subst σ)) rfl m old ih ih
  | .map k e, hk, _, m, old, hm => by
    have h' := (ty_halt (trivial_halt A) k hk.2.1).1
    rw [subst_whole _ k hk.1] at h'
    have h' := h' .decode k.zero (fun _ h => nomatch h)
    have ih := fun old => (decodeMap_halt (α := k.Val) h' ((ty_halt h e hk.2.2).1 .decode (e.subst σ).zero (fun _ h => nomatch h)) old).mono (Nat.succ_le_succ h.le)
    exact via_halt (t := .map k (e.subst σ)) rfl m old ih ih
  | .struct fs, hk, hg, m, old, hm => struct_halt (fs.subst σ) m hm old (guardedFields_halt h fs hk hg none)
theorem guardedFields_halt {σ : Nat → Nat → Nat → Ty} {A B : Nat} (h : RefHalt σ A B) : (fs : Fields) → fs.KeysOk → fs.Guarded → (err : Option Err) → (old : (fs.subst σ).Val) →
    (decodeFields chainDecoder (fs.subst σ) err old).Halt (B + 1)
  | .nil, _, _, _, _ => .pure _
  | .cons vis tag t fs, hk, hg, err, old => by
    obtain ⟨x, xs⟩ : (t.subst σ).Val × (fs.subst σ).Val := old
    have h1 := ty_halt h t hk.1
    have hm : ∀ j, Mode.elem ≠ .variant j := fun _ h => nomatch h
    refine decodeField_halt vis tag x _ _ (fun m => decodeWith chainDecoder (t.subst σ) m ((t.subst σ).alloc x)) xs err _ ?_
      (fun _ => (h1.1 .elem _ hm).mono h.le) (fun _ i => h1.2 i _) (fun err => (fields_halt h fs hk.2 err xs).mono h.le) ?_
    · rintro ht
      rcases hg.1 with h' | h' | h'
      · rw [h'] at ht; rcases ht with ht | ht <;> cases ht
      · rw [h'] at ht; rcases ht with ht | ht <;> cases ht
      · exact guarded_halt h t hk.1 h' .elem _ hm
    · rcases hg.2 with ⟨h2, h3, h4⟩ | h'
      · refine .inr ⟨h2, h3, ?_⟩
        rcases h4 with h | h | h
        · exact .inl h
        · exact .inr (.inl h)
        · exact .inr (.inr (ty_eats σ t h .elem (.inr (.inl rfl)) _))
      · exact .inl fun err => guardedFields_halt h fs hk.2 h' err xs
end

/-- Two levels take a byte. -/
theorem level_halt (D : Decls) (hD : D.Ok) (hg : ∀ i, (D i).Guarded) : ∀ n, RefHalt (D.level n) ((n + 1) / 2) (n / 2)
  | 0 => { plain := fun _ _ _ _ _ _ _ _ h => absurd h (Nat.not_lt_zero _), variant := fun _ _ _ _ _ _ _ h => absurd h (Nat.not_lt_zero _), le := Nat.le_refl _, ge := Nat.zero_le _ }
  | n + 1 => by
    have ih := level_halt D hD hg n
    have e : (n + 1 + 1) / 2 = n / 2 + 1 := by omega
    constructor
    · intro i s a m old hm
      rw [e]
      exact struct_halt ((D i).subst (D.level n)) m hm old (guardedFields_halt ih (D i) (Fields.RefsOk.keys _ (hD i)) (hg i) none)
    · intro i s a j old
      exact variant_halt ((D i).subst (D.level n)) j old fun x => member_halt ih (D i) (Fields.RefsOk.keys _ (hD i)) j x
    · omega
    · omega

end Verif
