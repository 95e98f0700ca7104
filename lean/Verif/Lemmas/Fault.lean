import Verif.Spec.Fault
import Verif.Lemmas.Reflect
import Verif.Lemmas.Codegen
import Verif.Lemmas.AbiWire
import Verif.Props.Tx
namespace Verif

/-- p writes bytes in R, fails or panics, as f says. -/
def Enc.Ends (p : Enc (Option Err)) (f : Option Fault) (R : Bytes → Prop) : Prop := match f with
  | none => ∃ bs, R bs ∧ p.Writes bs
  | some (.error e) => ∃ out, p.run = .ok (some e) out
  | some .panics => p.Panics

theorem Enc.Ends.of_writes {p : Enc (Option Err)} {R : Bytes → Prop} {bs : Bytes} (hr : R bs) (h : p.Writes bs) : p.Ends none R := ⟨bs, hr, h⟩

theorem Enc.Ends.mono {p : Enc (Option Err)} {f : Option Fault} {R S : Bytes → Prop} (h : p.Ends f R) (hs : ∀ bs, R bs → S bs) : p.Ends f S := by
  match f, h with
  | none, ⟨bs, h1, h2⟩ => exact ⟨bs, hs bs h1, h2⟩
  | some (.error e), h => exact h
  | some .panics, h => exact h

theorem Enc.Ends.bind {p q : Enc (Option Err)} {f g : Option Fault} {R S T : Bytes → Prop} (hp : p.Ends f R) (hq : q.Ends g S) (ht : ∀ b1 b2, R b1 → S b2 → T (b1 ++ b2)) :
    (p >>= fun e => match e with | some e => pure (some e) | none => q).Ends (f.or g) T := by
  match f, hp with
  | some (.error e), ⟨out, h⟩ => exact ⟨out ++ [], by rw [Enc.run_bind, h]; rfl⟩
  | some .panics, h => exact Enc.Panics.first h
  | none, ⟨bs, h1, h2⟩ =>
    match g, hq with
    | some (.error e), ⟨out, h⟩ => exact ⟨bs ++ out, by rw [Enc.run_bind, h2, EOut.bind_ok]; simp only [h]; rfl⟩
    | some .panics, h => exact Enc.Panics.after h2 h
    | none, ⟨bs', h3, h4⟩ => exact ⟨bs ++ bs', ht _ _ h1 h3, h2.bind h4⟩

theorem ends_each {α : Type} {enc : α → Enc (Option Err)} {k : Enc (Option Err)} {fa : α → Option Fault} {g : Option Fault} {R : α → Bytes → Prop} {S : Bytes → Prop} (hk : k.Ends g S)
    (xs : List α) (h : ∀ x ∈ xs, (enc x).Ends (fa x) (R x)) : (encEach enc k xs).Ends ((xs.findSome? fa).or g) fun bs => ∃ b1 b2, Each R xs b1 ∧ S b2 ∧ bs = b1 ++ b2 := by
  induction xs with
  | nil => exact hk.mono fun bs hb => ⟨[], bs, .nil, hb, rfl⟩
  | cons x xs ih =>
    have he : ((x :: xs).findSome? fa).or g = (fa x).or ((xs.findSome? fa).or g) := by
      rw [List.findSome?_cons]
      cases fa x <;> rfl
    rw [he]
    exact (h x (by simp)).bind (ih fun y hy => h y (by simp [hy])) fun b1 b2 h1 ⟨b3, b4, h3, h4, e⟩ => ⟨b1 ++ b3, b4, .cons h1 h3, h4, by rw [e, List.append_assoc]⟩

theorem ends_all {α : Type} {enc : α → Enc (Option Err)} {fa : α → Option Fault} {R : α → Bytes → Prop} (xs : List α) (h : ∀ x ∈ xs, (enc x).Ends (fa x) (R x)) :
    (encEach enc (pure none) xs).Ends (xs.findSome? fa) (Each R xs) := by
  have := ends_each (g := none) (S := fun bs => bs = []) ⟨[], rfl, Enc.Writes.pure⟩ xs h
  rw [Option.or_none] at this
  exact this.mono fun bs ⟨b1, b2, h1, h2, e⟩ => by subst h2; rw [e, List.append_nil]; exact h1

theorem ends_len (n : Nat) (hn : n < 2 ^ 63) : (writeVaruint n.toUInt64).Ends (lengthFault n) fun bs => MinLeb bs n := by
  unfold lengthFault
  by_cases h : n < 2 ^ 28
  · rw [if_pos h]; exact ⟨_, varuintBytes_minLeb n h, writeVaruint_writes n h⟩
  · rw [if_neg h]; exact writeLen_panics n (by omega) hn

theorem ends_varuint (v : UInt64) : (writeVaruint v).Ends (lengthFault v.toNat) fun bs => MinLeb bs v.toNat := by
  unfold lengthFault
  by_cases h : v.toNat < 2 ^ 28
  · rw [if_pos h]; exact ⟨_, varuintBytes_minLeb _ h, varuint_writes64 _ h⟩
  · rw [if_neg h]; exact (C03_varuint_iff_partial _).2.2 (by omega)

theorem ends_bytes (b : Bytes) (hn : b.length < 2 ^ 63) : (BytesT.marshal b).Ends (lengthFault b.length) fun bs => Prefixed bs b := by
  have := (ends_len b.length hn).bind (q := writeBytes b) (g := none) (S := fun bs => bs = b) (T := fun bs => Prefixed bs b) ⟨b, rfl, writeBytes_writes b⟩
    fun b1 b2 h1 h2 => ⟨b1, h1, by rw [h2]⟩
  rw [Option.or_none] at this
  exact this

theorem ends_counted {α : Type} {enc : α → Enc (Option Err)} {k : Enc (Option Err)} {fa : α → Option Fault} {g : Option Fault} {R : α → Bytes → Prop} {S T : Bytes → Prop} (hk : k.Ends g S)
    (xs : List α) (hl : xs.length < 2 ^ 63) (h : ∀ x ∈ xs, (enc x).Ends (fa x) (R x)) (ht : ∀ b1 b2, Counted R xs b1 → S b2 → T (b1 ++ b2)) :
    (encSlice enc xs k).Ends ((lengthFault xs.length).or ((xs.findSome? fa).or g)) T :=
  (ends_len _ hl).bind (ends_each hk xs h) fun b1 b2 h1 ⟨b3, b4, h3, h4, e⟩ => by
    rw [e, ← List.append_assoc]; exact ht _ _ ⟨_, _, h1, h3, rfl⟩ h4

theorem ends_counted_all {α : Type} {enc : α → Enc (Option Err)} {fa : α → Option Fault} {R : α → Bytes → Prop}
    (xs : List α) (hl : xs.length < 2 ^ 63) (h : ∀ x ∈ xs, (enc x).Ends (fa x) (R x)) (p : Enc (Option Err))
    (hp : p = (writeVaruint xs.length.toUInt64).bind fun e => match e with
      | some e => pure (some e)
      | none => encEach enc (pure none) xs) :
    p.Ends ((lengthFault xs.length).or (xs.findSome? fa)) (Counted R xs) := by
  subst hp
  exact (ends_len _ hl).bind (ends_all xs h) fun b1 b2 h1 h3 => ⟨_, _, h1, h3, rfl⟩

theorem ends_basic (b : Basic) (v : b.Val) (hr : (Ty.basic b).Real v) : (b.write v).Ends (b.fault v) (b.Layout v) := by
  have ok : b.Wf v → (b.write v).Ends none (b.Layout v) := fun h => by
    obtain ⟨bs, h1, h2, _⟩ := b.codec v h
    exact ⟨bs, h1, h2⟩
  cases b
  case string => exact ends_bytes v hr
  case int =>
    change (writeVarint v).Ends (if -2 ^ 27 ≤ Int64.toInt v ∧ Int64.toInt v < 2 ^ 27 then none else some .panics) (Basic.int.Layout v)
    by_cases h : -2 ^ 27 ≤ Int64.toInt v ∧ Int64.toInt v < 2 ^ 27
    · rw [if_pos h]; exact ok h
    · rw [if_neg h]; exact (C03_varint_iff_partial v).2.2 h
  case uint => exact ends_varuint v
  all_goals exact ok trivial

theorem ends_named (b : Basic) (v : b.Val) : (b.writeKind v).Ends b.kindFault (b.Layout v) := by
  have ok : b.Wide → (b.writeKind v).Ends none (b.Layout v) := fun h => by
    obtain ⟨bs, h1, h2, _⟩ := b.codecKind v b.zero h
    exact ⟨bs, h1, h2⟩
  cases b
  all_goals first | exact ok trivial | exact ⟨[], rfl⟩

theorem ends_action (a : Action) (hl : a.GoLens) : a.marshal.Ends a.fault (ActionLayout a) := by
  by_cases h : a.Small
  · have : a.fault = none := by unfold Action.fault lengthFault; rw [if_pos h.1, if_pos h.2]; rfl
    rw [this]; exact ⟨_, action_layout a h, action_writes a h⟩
  · have : a.fault = some .panics := by
      unfold Action.fault lengthFault
      by_cases h1 : a.authorization.length < 2 ^ 28
      · rw [if_pos h1, if_neg fun h2 => h ⟨h1, h2⟩]; rfl
      · rw [if_neg h1]; rfl
    rw [this]; exact action_panics a hl h

theorem ends_extension (x : TxExtension) (hl : x.data.length < 2 ^ 63) : x.marshal.Ends x.fault (ExtensionLayout x) := by
  unfold TxExtension.fault lengthFault
  by_cases h : x.data.length < 2 ^ 28
  · rw [if_pos h]; exact ⟨_, extension_layout x h, extension_writes x h⟩
  · rw [if_neg h]; exact extension_panics x hl h

theorem ends_header (t : TxHeader) : t.marshal.Ends t.fault (HeaderLayout t) := by
  by_cases h : t.Small
  · have : t.fault = none := by unfold TxHeader.fault lengthFault; rw [if_pos h.1, if_pos h.2]; rfl
    rw [this]; exact ⟨_, header_layout t h, header_writes t h⟩
  · have : t.fault = some .panics := by
      unfold TxHeader.fault lengthFault
      by_cases h1 : t.maxNetUsageWords.toNat < 2 ^ 28
      · rw [if_pos h1, if_neg fun h2 => h ⟨h1, h2⟩]; rfl
      · rw [if_neg h1]; rfl
    rw [this]; exact header_panics t h

theorem ends_transaction (t : Transaction) (hl : t.GoLens) : t.marshal.Ends t.fault (TransactionLayout t) := by
  obtain ⟨l1, l2, l3, l4, l5, l6⟩ := hl
  have hx := ends_counted (k := pure none) (g := none) (S := fun bs => bs = []) (T := Counted ExtensionLayout t.extensions) ⟨[], rfl, Enc.Writes.pure⟩ t.extensions l3
    (fun x hx => ends_extension x (l6 x hx)) fun b1 b2 h1 h2 => by rw [h2, List.append_nil]; exact h1
  rw [Option.or_none] at hx
  have ha := ends_counted (T := fun bs => ∃ b1 b2, Counted ActionLayout t.actions b1 ∧ Counted ExtensionLayout t.extensions b2 ∧ bs = b1 ++ b2) hx t.actions l2
    (fun x hx => ends_action x (l5 x hx)) fun b1 b2 h1 h2 => ⟨b1, b2, h1, h2, rfl⟩
  have hc := ends_counted (T := fun bs => ∃ b0 b1 b2, Counted ActionLayout t.contextFreeActions b0 ∧ Counted ActionLayout t.actions b1 ∧ Counted ExtensionLayout t.extensions b2 ∧
    bs = b0 ++ b1 ++ b2) ha t.contextFreeActions l1
    (fun x hx => ends_action x (l4 x hx)) fun b1 b2 h1 ⟨b3, b4, h3, h4, e⟩ => ⟨b1, b3, b4, h1, h3, h4, by rw [e, List.append_assoc]⟩
  exact (ends_header t.header).bind hc fun b1 b2 h1 ⟨b3, b4, b5, h3, h4, h5, e⟩ => ⟨b1, b3, b4, b5, h1, h3, h4, h5, by rw [e]; simp only [List.append_assoc]⟩

theorem ends_chain (c : ChainTy) (v : c.Val) (hr : c.Real v) : (c.marshal v).Ends (c.fault v) (c.Layout v) := by
  cases c
  case action => exact ends_action v hr
  case blob => exact ends_bytes _ hr
  case bytes => exact ends_bytes _ hr
  case transaction => exact ends_transaction v hr
  case transactionExtension => exact ends_extension v hr
  case transactionHeader => exact ends_header v
  case checksum160 => exact ⟨v, rfl, writeBytes_writes _⟩
  case checksum256 => exact ⟨v, rfl, writeBytes_writes _⟩
  case checksum512 => exact ⟨v, rfl, writeBytes_writes _⟩
  case float128 => exact ⟨v, rfl, writeBytes_writes _⟩
  case publicKey => exact ⟨_, rfl, Enc.Writes.bind (writeByte_writes _) (writeBytes_writes _)⟩
  case signature => exact ⟨_, rfl, Enc.Writes.bind (writeByte_writes _) (writeBytes_writes _)⟩
  all_goals
    obtain ⟨bs, h1, h2, _⟩ := ChainTy.codec _ v trivial
    exact ⟨bs, h1, h2⟩

theorem ends_nil (t : Ty) : (encode (.ptr t) (none : Option t.Val)).Ends (some t.nilFault) fun _ => False := by
  cases t
  case chain c => exact ⟨_, rfl⟩
  all_goals exact ⟨[], rfl⟩

mutual
theorem ends_ty : (t : Ty) → t.Whole → (v : t.Val) → t.Real v → (encode t v).Ends (t.fault v) (t.Layout v)
  | .basic b, _, v, hr => ends_basic b v hr
  | .named b, _, v, _ => ends_named b v
  | .unsupported, _, _, _ => ⟨[], rfl⟩
  | .bytes, _, v, hr => ends_bytes _ hr
  | .chain c, _, v, hr => (encode_chain c v).symm ▸ ends_chain c v hr
  | .ptr t, hw, v, hr => by
    match v with
    | none => exact (ends_nil t).mono fun _ h => h.elim
    | some x =>
      have := ends_ty t hw x (hr x rfl)
      exact (encode_ptr_some t x).symm ▸ this.mono fun bs h => ⟨x, rfl, h⟩
  | .slice t, hw, v, hr => ends_counted_all (R := t.Layout) (enc := encode t) (fa := t.fault) (Option.getD (α := List t.Val) v []) hr.1 (fun x hx => ends_ty t hw x (hr.2 x hx)) _ rfl
  | .array _ t, hw, v, hr => ends_all (R := t.Layout) (enc := encode t) (fa := t.fault) (show List t.Val from v) fun x hx => ends_ty t hw x (hr x hx)
  | .map k e, hw, v, hr => ends_counted_all (R := fun (x : k.Val × e.Val) bs => ∃ b1 b2, k.Layout x.1 b1 ∧ e.Layout x.2 b2 ∧ bs = b1 ++ b2)
      (enc := fun (x : k.Val × e.Val) => do
        match ← encode k x.1 with
        | some e => pure (some e)
        | none => encode e x.2) (fa := fun x => (k.fault x.1).or (e.fault x.2)) (Option.getD (α := List (k.Val × e.Val)) v []) hr.1
      (fun x hx => (ends_ty k hw.1 x.1 (hr.2 x hx).1).bind (ends_ty e hw.2 x.2 (hr.2 x hx).2) fun b1 b2 h1 h2 => ⟨b1, b2, h1, h2, rfl⟩) _ rfl
  | .struct fs, hw, v, hr => ends_fields fs hw v hr
  | .ref _ _ _, hw, _, _ => hw.elim
theorem ends_fields : (fs : Fields) → fs.Whole → (v : fs.Val) → fs.Real v → (encodeFields chainEncoder fs v).Ends (fs.fault v) (fs.Layout v)
  | .nil, _, _, _ => ⟨[], rfl, Enc.Writes.pure⟩
  | .cons vis tag t fs, hw, v, hr => by
    obtain ⟨x, xs⟩ : t.Val × fs.Val := v
    have h1 := ends_ty t hw.1 x hr.1
    have h2 := ends_fields fs hw.2 xs hr.2
    change (encodeField vis tag (t.isZero x) (encode t x) (encodeFields chainEncoder fs xs)).Ends
      ((if tag = .optional ∧ x = t.zero then none else if vis = .exported then t.fault x else some .panics).or (fs.fault xs))
      fun bs => ∃ b1 b2, fs.Layout xs b2 ∧ bs = b1 ++ b2 ∧
      (if tag = .optional then (x = t.zero ∧ b1 = [0]) ∨ (x ≠ t.zero ∧ ∃ b, t.Layout x b ∧ b1 = 1 :: b) else t.Layout x b1)
    unfold encodeField
    by_cases ht : tag = .optional
    · simp only [if_pos ht]
      by_cases hz : x = t.zero
      · have : t.isZero x = true := (isZero_iff t x).2 hz
        simp only [this, if_true, Bool.not_true, if_pos (And.intro ht hz)]
        have hb : (writeBool false >>= fun _ => encodeFields chainEncoder fs xs).Ends (fs.fault xs) fun bs => ∃ b2, fs.Layout xs b2 ∧ bs = [0] ++ b2 := by
          have := Enc.Ends.bind (f := none) (R := fun bs => bs = [0]) (T := fun bs => ∃ b2, fs.Layout xs b2 ∧ bs = [0] ++ b2) ⟨[0], rfl, writeBool_writes false⟩ h2 fun b1 b2 e h => ⟨b2, h, by rw [e]⟩
          exact this
        exact hb.mono fun bs ⟨b2, h, e⟩ => ⟨[0], b2, h, e, .inl ⟨hz, rfl⟩⟩
      · have hf : t.isZero x = false := Bool.eq_false_iff.2 fun h => hz ((isZero_iff t x).1 h)
        simp only [hf, Bool.not_false, if_neg fun h : tag = .optional ∧ x = t.zero => hz h.2]
        by_cases hv : vis = .exported
        · simp only [if_pos hv]
          have := Enc.Ends.bind (f := none) (R := fun bs => bs = [1]) (T := fun bs => ∃ b1 b2, fs.Layout xs b2 ∧ bs = b1 ++ b2 ∧ ((x = t.zero ∧ b1 = [0]) ∨ (x ≠ t.zero ∧ ∃ b, t.Layout x b ∧ b1 = 1 :: b)))
            ⟨[1], rfl, writeBool_writes true⟩ (h1.bind (T := fun bs => ∃ b1 b2, fs.Layout xs b2 ∧ bs = b1 ++ b2 ∧ t.Layout x b1) h2 fun b1 b2 g1 g2 => ⟨b1, b2, g2, rfl, g1⟩)
            fun b1 b2 e ⟨b3, b4, g1, g2, g3⟩ => ⟨1 :: b3, b4, g1, by rw [e, g2]; rfl, .inr ⟨hz, b3, g3, rfl⟩⟩
          exact this
        · simp only [if_neg hv]
          exact Enc.Panics.after (writeBool_writes true) ⟨_, rfl⟩
    · simp only [if_neg ht, if_neg fun h : tag = .optional ∧ x = t.zero => ht h.1]
      by_cases hv : vis = .exported
      · simp only [if_pos hv]
        exact h1.bind h2 fun b1 b2 g1 g2 => ⟨b1, b2, g2, rfl, g1⟩
      · simp only [if_neg hv]
        exact ⟨_, rfl⟩
end

mutual
theorem Ty.layout_unique : (t : Ty) → (v : t.Val) → (a b : Bytes) → t.Layout v a → t.Layout v b → a = b
  | .basic b, v, x, y, h1, h2 => b.layout_unique v x y h1 h2
  | .named b, v, x, y, h1, h2 => b.layout_unique v x y h1 h2
  | .unsupported, _, _, _, h1, _ => h1.elim
  | .bytes, v, x, y, h1, h2 => prefixed_unique _ _ _ h1 h2
  | .chain c, v, x, y, h1, h2 => c.layout_unique v x y h1 h2
  | .ptr t, v, x, y, ⟨a, h1, h2⟩, ⟨b, h3, h4⟩ => by
    cases h1.symm.trans h3
    exact t.layout_unique a x y h2 h4
  | .slice t, v, x, y, h1, h2 => counted_unique t.Layout t.layout_unique _ x y h1 h2
  | .array _ t, v, x, y, h1, h2 => each_unique t.Layout t.layout_unique _ x y h1 h2
  | .map k e, v, x, y, h1, h2 => counted_unique _ (fun a x y ⟨b1, b2, g1, g2, g3⟩ ⟨b3, b4, g4, g5, g6⟩ => by
      rw [g3, g6, k.layout_unique a.1 b1 b3 g1 g4, e.layout_unique a.2 b2 b4 g2 g5]) _ x y h1 h2
  | .struct fs, v, x, y, h1, h2 => fs.layout_unique v x y h1 h2
  | .ref _ _ _, _, _, _, h1, _ => h1.elim
theorem Fields.layout_unique : (fs : Fields) → (v : fs.Val) → (a b : Bytes) → fs.Layout v a → fs.Layout v b → a = b
  | .nil, _, _, _, h1, h2 => h1.trans h2.symm
  | .cons vis tag t fs, v, x, y, ⟨b1, b2, h1, h2, h3⟩, ⟨b3, b4, g1, g2, g3⟩ => by
    rw [h2, g2, fs.layout_unique _ b2 b4 h1 g1]
    congr 1
    by_cases ht : tag = .optional
    · rw [if_pos ht] at h3 g3
      rcases h3 with ⟨z, e⟩ | ⟨z, b, hl, e⟩ <;> rcases g3 with ⟨z', e'⟩ | ⟨z', b', hl', e'⟩
      · rw [e, e']
      · exact absurd z z'
      · exact absurd z' z
      · rw [e, e', t.layout_unique _ b b' hl hl']
    · rw [if_neg ht] at h3 g3
      exact t.layout_unique _ b1 b3 h3 g3
end

end Verif
