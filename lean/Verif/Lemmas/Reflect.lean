import Verif.Lemmas.ReflectBasic
/-! # The recursive part of the reflection codec -/
namespace Verif

theorem Enc.bind_ret {α : Type} (p : Enc α) : p.bind Enc.ret = p := by
  induction p with
  | ret a => rfl
  | panic w => rfl
  | diverge => rfl
  | write n k ih => simp only [Enc.bind]; congr; funext e; exact ih e

theorem Dec.bind_ret {α : Type} (p : Dec α) : p.bind Dec.ret = p := by
  induction p with
  | ret a => rfl
  | panic w => rfl
  | diverge => rfl
  | read n k ih => simp only [Dec.bind]; congr; funext b c e; exact ih b c e

theorem Enc.Writes.of_eq {p q : Enc (Option Err)} {bs : Bytes} (h : p = q) (hq : q.Writes bs) : p.Writes bs := h ▸ hq

/-! ### Encoding -/

theorem chainEncoder_done (c : ChainTy) (hc : c ≠ .extendedAsset) (v : c.Val) (k : Enc (Option Err)) : viaEncFn chainEncoder (.chain c) v k = c.marshal v := by
  have h : chainEncoder (.chain c) v = (c.marshal v).bind fun err => .ret (true, err) := by
    cases c <;> first | rfl | exact absurd rfl hc
  unfold viaEncFn
  rw [h]
  exact (Enc.bind_assoc' _ _ _).trans (Enc.bind_ret _)

theorem encode_chain (c : ChainTy) (v : c.Val) : encode (.chain c) v = c.marshal v := by
  by_cases hc : c = .extendedAsset
  · subst hc
    obtain ⟨q, ct⟩ : ExtendedAsset := v
    change Enc.bind (viaEncFn chainEncoder (.chain .asset) q (ChainTy.encodeValue.encodeAsset chainEncoder q)) (fun e => match e with
      | some e => pure (some e)
      | none => viaEncFn chainEncoder (.chain .name) ct (Name.marshal ct)) = Enc.bind q.marshal (fun e => match e with
      | some e => pure (some e)
      | none => Name.marshal ct)
    exact congr (congrArg Enc.bind (chainEncoder_done .asset (by decide) q _))
      (funext fun e => by cases e <;> first | exact chainEncoder_done .name (by decide) ct _ | rfl)
  · exact chainEncoder_done c hc v _

theorem encode_ptr_some (t : Ty) (x : t.Val) : encode (.ptr t) (some x) = encode t x := by
  cases t
  case chain c => exact (encode_chain c x).symm
  all_goals rfl

theorem encode_bytes (v : Option Bytes) : encode .bytes v = BytesT.marshal (v.getD []) := rfl

theorem encEach_layout {α : Type} (R : α → Bytes → Prop) (enc : α → Enc (Option Err)) (xs : List α) (h : ∀ x ∈ xs, ∃ b, R x b ∧ (enc x).Writes b) :
    ∃ bs, Each R xs bs ∧ (encEach enc (pure none) xs).Writes bs := by
  induction xs with
  | nil => exact ⟨[], .nil, Enc.Writes.pure⟩
  | cons x xs ih =>
    obtain ⟨b, h1, h2⟩ := h x (by simp)
    obtain ⟨bs, h3, h4⟩ := ih fun y hy => h y (by simp [hy])
    exact ⟨b ++ bs, .cons h1 h3, h2.bind h4⟩

theorem counted_layout {α : Type} (R : α → Bytes → Prop) (enc : α → Enc (Option Err)) (xs : List α) (hl : xs.length < 2 ^ 28)
    (h : ∀ x ∈ xs, ∃ b, R x b ∧ (enc x).Writes b) (p : Enc (Option Err))
    (hp : p = (writeVaruint xs.length.toUInt64).bind fun e => match e with
      | some e => pure (some e)
      | none => encEach enc (pure none) xs) :
    ∃ bs, Counted R xs bs ∧ p.Writes bs := by
  obtain ⟨bs, h1, h2⟩ := encEach_layout R enc xs h
  refine ⟨_, ⟨_, _, varuintBytes_minLeb _ hl, h1, rfl⟩, ?_⟩
  subst hp
  exact Enc.Writes.bind (writeVaruint_writes _ hl) h2

mutual
theorem encode_layout : (t : Ty) → (v : t.Val) → t.Encodable → t.Wf v → ∃ bs, t.Layout v bs ∧ (encode t v).Writes bs
  | .basic b, v, _, hw => by
    obtain ⟨bs, h1, h2, _⟩ := b.codec v hw
    exact ⟨bs, h1, h2⟩
  | .named b, v, he, _ => by
    obtain ⟨bs, h1, h2, _⟩ := b.codecKind v b.zero he
    exact ⟨bs, h1, h2⟩
  | .unsupported, _, he, _ => he.elim
  | .bytes, v, _, hw => ⟨_, prefixed_dataBytes _ hw, bytesT_writes _ hw⟩
  | .chain c, v, _, hw => by
    obtain ⟨bs, h1, h2, _⟩ := c.codec v hw
    exact ⟨bs, h1, Enc.Writes.of_eq (encode_chain c v) h2⟩
  | .ptr t, v, he, hw => by
    obtain ⟨x, rfl, hx⟩ := hw
    obtain ⟨bs, h1, h2⟩ := encode_layout t x he hx
    exact ⟨bs, ⟨x, rfl, h1⟩, Enc.Writes.of_eq (encode_ptr_some t x) h2⟩
  | .slice t, v, he, hw =>
    counted_layout t.Layout (encode t) (Option.getD (α := List t.Val) v []) hw.1 (fun x hx => encode_layout t x he (hw.2.2 x hx)) _ rfl
  | .array _ t, v, he, hw => encEach_layout t.Layout (encode t) v fun x hx => encode_layout t x he (hw.2 x hx)
  | .map k e, v, he, hw =>
    counted_layout _ (fun (x, y) => do
        match ← encode k x with
        | some e => pure (some e)
        | none => encode e y) (Option.getD (α := List (k.Val × e.Val)) v []) hw.1 (fun x hx => by
      obtain ⟨b1, h1, h2⟩ := encode_layout k x.1 he.1 (hw.2.2 x hx).1
      obtain ⟨b2, h3, h4⟩ := encode_layout e x.2 he.2 (hw.2.2 x hx).2
      exact ⟨_, ⟨b1, b2, h1, h3, rfl⟩, h2.bind h4⟩) _ rfl
  | .struct fs, v, he, hw => encodeFields_layout fs v he hw
  | .ref _ _ _, _, _, hw => hw.elim
theorem encodeFields_layout : (fs : Fields) → (v : fs.Val) → fs.Encodable → fs.Wf v → ∃ bs, fs.Layout v bs ∧ (encodeFields chainEncoder fs v).Writes bs
  | .nil, _, _, _ => ⟨[], rfl, Enc.Writes.pure⟩
  | .cons vis tag t fs, v, he, hw => by
    obtain ⟨x, xs⟩ : t.Val × fs.Val := v
    obtain ⟨h0, h1, h2⟩ := he
    obtain ⟨w1, w2⟩ := hw
    subst h0
    obtain ⟨b2, l2, e2⟩ := encodeFields_layout fs xs h2 w2
    have one : t.Wf x → ∃ b1, t.Layout x b1 ∧ Enc.Writes ((encode t x).bind fun e => match e with
        | some e => pure (some e)
        | none => encodeFields chainEncoder fs xs) (b1 ++ b2) := fun hx => by
      obtain ⟨b1, l1, e1⟩ := encode_layout t x h1 hx
      exact ⟨b1, l1, e1.bind e2⟩
    change ∃ bs, (∃ b1 b2, fs.Layout xs b2 ∧ bs = b1 ++ b2 ∧
      (if tag = .optional then (x = t.zero ∧ b1 = [0]) ∨ (x ≠ t.zero ∧ ∃ b, t.Layout x b ∧ b1 = 1 :: b) else t.Layout x b1)) ∧
      (encodeField .exported tag (t.isZero x) (encode t x) (encodeFields chainEncoder fs xs)).Writes bs
    unfold encodeField
    by_cases ht : tag = .optional
    · simp only [if_pos ht]
      by_cases hz : x = t.zero
      · refine ⟨[0] ++ b2, ⟨[0], b2, l2, rfl, .inl ⟨hz, rfl⟩⟩, ?_⟩
        have : t.isZero x = true := by unfold Ty.isZero; exact decide_eq_true hz
        simp only [this, if_true, Bool.not_true]
        exact Enc.Writes.bind (writeBool_writes false) e2
      · obtain ⟨b1, l1, e1⟩ := one (w1.resolve_left fun h => hz h.2)
        refine ⟨(1 :: b1) ++ b2, ⟨1 :: b1, b2, l2, rfl, .inr ⟨hz, b1, l1, rfl⟩⟩, ?_⟩
        have : t.isZero x = false := by unfold Ty.isZero; exact decide_eq_false hz
        simp only [this, Bool.not_false]
        exact Enc.Writes.bind (b1 := [1]) (writeBool_writes true) e1
    · simp only [if_neg ht]
      obtain ⟨b1, l1, e1⟩ := one (w1.resolve_left fun h => ht h.1)
      exact ⟨b1 ++ b2, ⟨b1, b2, l2, rfl, l1⟩, e1⟩
end

/-! ### Decoding -/

/-- Not a variant mode. -/
def Mode.Plain (m : Mode) : Prop := m = .decode ∨ m = .elem ∨ m = .value

theorem decode_chain (c : ChainTy) (m : Mode) (hm : m.Plain) (old : c.Val) : decodeWith chainDecoder (.chain c) m old = c.unmarshal old := by
  have fast : Dec.bind (chainDecoder (.chain c) old) (fun x => if x.2.1 || x.2.2.isSome then Dec.ret (x.1, x.2.2) else c.unmarshal x.1) = c.unmarshal old := by
    by_cases hc : c = .extendedAsset
    · subst hc; rfl
    · have h : chainDecoder (.chain c) old = (c.unmarshal old).bind fun x => .ret (x.1, true, x.2) := by
        cases c <;> first | rfl | exact absurd rfl hc
      rw [h]
      exact (Dec.bind_assoc' _ _ _).trans (Dec.bind_ret _)
  rcases hm with rfl | rfl | rfl
  · exact fast
  · exact fast
  · rfl

theorem Dec.Reads.of_eq {α : Type} {p q : Dec (α × Option Err)} {bs : Bytes} {a : α} (h : p = q) (hq : q.Reads bs a) : p.Reads bs a := h ▸ hq

/-- Change of the value returned. -/
theorem Dec.Reads.map {α β : Type} {p : Dec (α × Option Err)} {bs : Bytes} {a : α} (h : p.Reads bs a) (f : α → β) :
    (Dec.bind p fun x => Dec.ret (f x.1, x.2)).Reads bs (f a) := h.last rfl

theorem decEach_layout {α : Type} (R : α → Bytes → Prop) (S : α → α → Prop) (Q : α → Prop) (dec : α → Dec (α × Option Err)) (xs : List α)
    (h : ∀ x ∈ xs, ∀ o b, Q o → R x b → ∃ y, S x y ∧ (dec o).Reads b y) (os : List α) (hl : os.length = xs.length) (ho : ∀ o ∈ os, Q o) (bs : Bytes)
    (hb : Each R xs bs) : ∃ ys, Forall2 S xs ys ∧ (decEach dec os).Reads bs ys := by
  induction hb generalizing os with
  | nil =>
    cases os with
    | nil => exact ⟨[], .nil, Dec.Reads.pure []⟩
    | cons _ _ => simp at hl
  | @cons x xs b bs r1 r2 ih =>
    cases os with
    | nil => simp at hl
    | cons o os =>
      obtain ⟨y, s1, d1⟩ := h x (by simp) o b (ho o (by simp)) r1
      obtain ⟨ys, s2, d2⟩ := ih (fun z hz => h z (by simp [hz])) os (by simpa using hl) (fun z hz => ho z (by simp [hz]))
      exact ⟨y :: ys, .cons s1 s2, Dec.Reads.bind d1 (d2.last rfl)⟩

theorem decodeSlice_layout {α : Type} (R : α → Bytes → Prop) (S : α → α → Prop) (Q : α → Prop) (zero : α) (size : Nat) (dec : α → Dec (α × Option Err)) (xs : List α)
    (h : ∀ x ∈ xs, ∀ o b, Q o → R x b → ∃ y, S x y ∧ (dec o).Reads b y) (old : Option (List α)) (hl : xs.length < 2 ^ 28) (hs : xs.length * size ≤ maxAlloc)
    (hz : Q zero) (ho : ∀ o ∈ old.getD [], Q o) (bs : Bytes) (hb : Counted R xs bs) :
    ∃ ys : Option (List α), Forall2 S xs (ys.getD []) ∧ (decodeSlice zero size dec old).Reads bs ys := by
  obtain ⟨lb, es, h1, h2, rfl⟩ := hb
  rw [minLeb_unique _ _ _ h1 (varuintBytes_minLeb _ hl)]
  have hg : goInt xs.length.toUInt64 = xs.length := goInt_toUInt64 _ (by omega)
  by_cases he : (old.getD []).length = xs.length
  · obtain ⟨ys, s, d⟩ := decEach_layout R S Q dec xs h (old.getD []) he ho es h2
    refine ⟨old.map fun _ => ys, ?_, Dec.Reads.bind (readVaruint_reads _ hl) ?_⟩
    · cases old with
      | none =>
        cases xs with
        | nil => cases s; exact .nil
        | cons _ _ => simp at he
      | some o => exact s
    · dsimp only
      rw [hg, if_neg (by simp [he])]
      exact d.last rfl
  · obtain ⟨ys, s, d⟩ := decEach_layout R S Q dec xs h (List.replicate xs.length zero) (by simp) (fun o ho => (List.mem_replicate.1 ho).2 ▸ hz) es h2
    refine ⟨some ys, s, Dec.Reads.bind (readVaruint_reads _ hl) ?_⟩
    dsimp only
    unfold makeSlice
    rw [hg, if_pos (by omega), if_neg (by omega), toUInt64_toNat _ hl, if_neg (by omega)]
    exact d.last rfl

theorem mapSet_append {α β : Type} [DecidableEq α] (k : α) (v : β) (m : List (α × β)) (h : k ∉ m.map Prod.fst) : mapSet k v m = m ++ [(k, v)] := by
  induction m with
  | nil => rfl
  | cons x m ih =>
    obtain ⟨k', v'⟩ := x
    simp only [List.map_cons, List.mem_cons, not_or] at h
    rw [mapSet, if_neg (fun e => h.1 e.symm), ih h.2]
    rfl

theorem forall2_keys {α β : Type} (S : β → β → Prop) (xs ys : List (α × β)) (h : Forall2 (fun x y => x.1 = y.1 ∧ S x.2 y.2) xs ys) : xs.map Prod.fst = ys.map Prod.fst := by
  induction h with
  | nil => rfl
  | cons h1 _ ih => simp [h1.1, ih]

theorem forall2_length {α β : Type} (S : α → β → Prop) (xs : List α) (ys : List β) (h : Forall2 S xs ys) : xs.length = ys.length := by
  induction h with
  | nil => rfl
  | cons _ _ ih => simp [ih]

theorem forall2_left {α β : Type} (S : α → β → Prop) (xs : List α) (ys : List β) (h : Forall2 S xs ys) : ∀ x ∈ xs, ∃ y ∈ ys, S x y := by
  induction h with
  | nil => intro x hx; simp at hx
  | cons h1 _ ih =>
    intro x hx
    rcases List.mem_cons.1 hx with rfl | hx
    · exact ⟨_, by simp, h1⟩
    · obtain ⟨y, hy, hs⟩ := ih x hx; exact ⟨y, by simp [hy], hs⟩

theorem forall2_right {α β : Type} (S : α → β → Prop) (xs : List α) (ys : List β) (h : Forall2 S xs ys) : ∀ y ∈ ys, ∃ x ∈ xs, S x y := by
  induction h with
  | nil => intro x hx; simp at hx
  | cons h1 _ ih =>
    intro x hx
    rcases List.mem_cons.1 hx with rfl | hx
    · exact ⟨_, by simp, h1⟩
    · obtain ⟨y, hy, hs⟩ := ih x hx; exact ⟨y, by simp [hy], hs⟩

theorem sameMap_of_forall2 {α β : Type} (S : β → β → Prop) (xs ys : List (α × β)) (hn : (xs.map Prod.fst).Nodup)
    (h : Forall2 (fun x y => x.1 = y.1 ∧ S x.2 y.2) xs ys) : SameMap S xs ys := by
  refine ⟨forall2_keys S xs ys h ▸ hn, forall2_length _ _ _ h, ?_, ?_⟩
  · intro k x hx
    obtain ⟨⟨k', y⟩, hy, e, hs⟩ := forall2_left _ _ _ h _ hx
    cases e
    exact ⟨y, hy, hs⟩
  · intro k y hy
    obtain ⟨⟨k', x⟩, hx, e, hs⟩ := forall2_right _ _ _ h _ hy
    cases e
    exact ⟨x, hx, hs⟩

theorem mapLoop_layout {α β : Type} [DecidableEq α] (R : α × β → Bytes → Prop) (S : β → β → Prop) (dk : Dec (α × Option Err)) (dv : Dec (β × Option Err)) (xs : List (α × β))
    (h : ∀ x ∈ xs, ∀ b, R x b → ∃ b1 b2 y, b = b1 ++ b2 ∧ S x.2 y ∧ dk.Reads b1 x.1 ∧ dv.Reads b2 y) (bs : Bytes) (hb : Each R xs bs) (m : List (α × β))
    (hn : (m.map Prod.fst ++ xs.map Prod.fst).Nodup) :
    ∃ ys, Forall2 (fun x y => x.1 = y.1 ∧ S x.2 y.2) xs ys ∧ (mapLoop dk dv xs.length m).Reads bs (m ++ ys) := by
  induction hb generalizing m with
  | nil => exact ⟨[], .nil, by rw [List.append_nil]; exact Dec.Reads.pure m⟩
  | @cons x xs b bs r1 r2 ih =>
    obtain ⟨b1, b2, y, rfl, s1, d1, d2⟩ := h x (by simp) b r1
    have hx : x.1 ∉ m.map Prod.fst := by
      intro hm
      have := (List.nodup_append.1 hn).2.2 _ hm _ (List.mem_cons_self ..)
      exact this rfl
    obtain ⟨ys, s2, d3⟩ := ih (fun z hz => h z (by simp [hz])) (m ++ [(x.1, y)]) (by simpa using hn)
    refine ⟨(x.1, y) :: ys, .cons ⟨rfl, s1⟩ s2, ?_⟩
    rw [List.append_assoc]
    refine Dec.Reads.bind d1 (Dec.Reads.bind d2 ?_)
    dsimp only
    rw [mapSet_append _ _ _ hx]
    rw [List.append_assoc] at d3
    exact d3

theorem decodeMap_layout {α β : Type} [DecidableEq α] (R : α × β → Bytes → Prop) (S : β → β → Prop) (dk : Dec (α × Option Err)) (dv : Dec (β × Option Err)) (xs : List (α × β))
    (h : ∀ x ∈ xs, ∀ b, R x b → ∃ b1 b2 y, b = b1 ++ b2 ∧ S x.2 y ∧ dk.Reads b1 x.1 ∧ dv.Reads b2 y) (hl : xs.length < 2 ^ 28)
    (hn : (xs.map Prod.fst).Nodup) (old : Option (List (α × β))) (bs : Bytes) (hb : Counted R xs bs) :
    ∃ ys : Option (List (α × β)), SameMap S xs (ys.getD []) ∧ (decodeMap dk dv old).Reads bs ys := by
  obtain ⟨lb, es, h1, h2, rfl⟩ := hb
  rw [minLeb_unique _ _ _ h1 (varuintBytes_minLeb _ hl)]
  obtain ⟨ys, s, d⟩ := mapLoop_layout R S dk dv xs h es h2 [] (by simpa using hn)
  refine ⟨some ys, sameMap_of_forall2 S xs ys hn s, Dec.Reads.bind (readVaruint_reads _ hl) ?_⟩
  dsimp only
  rw [goInt_toUInt64 _ (by omega), Int.toNat_natCast]
  exact d.last rfl

theorem forall2_eq {α : Type} (S : α → α → Prop) (h : ∀ x y, S x y → x = y) (xs ys : List α) (hf : Forall2 S xs ys) : xs = ys := by
  induction hf with
  | nil => rfl
  | cons h1 _ ih => rw [h _ _ h1, ih]

mutual
theorem key_same : (t : Ty) → t.KeyType → ∀ v w : t.Val, t.Same v w → v = w
  | .basic _, _, _, _, h => h
  | .named _, _, _, _, h => h
  | .unsupported, h, _, _, _ => h.elim
  | .bytes, h, _, _, _ => h.elim
  | .chain c, hk, v, w, h => by
    obtain ⟨_, h1, h2, _⟩ := hk
    cases c <;> first | exact h | exact absurd rfl h1 | exact absurd rfl h2
  | .ptr _, h, _, _, _ => h.elim
  | .slice _, h, _, _, _ => h.elim
  | .array _ t, hk, v, w, h => forall2_eq t.Same (key_same t hk) v w h
  | .map _ _, h, _, _, _ => h.elim
  | .struct fs, hk, v, w, h => keyFields_same fs hk v w h
  | .ref _ _ _, h, _, _, _ => h.elim
theorem keyFields_same : (fs : Fields) → fs.KeyType → ∀ v w : fs.Val, fs.Same v w → v = w
  | .nil, _, _, _, _ => rfl
  | .cons _ _ t fs, hk, v, w, h => Prod.ext (key_same t hk.1 _ _ h.1) (keyFields_same fs hk.2 _ _ h.2)
end

theorem forall2_replicate {α β : Type} (S : α → β → Prop) (x : α) (y : β) (h : S x y) (n : Nat) : Forall2 S (List.replicate n x) (List.replicate n y) := by
  induction n with
  | zero => exact .nil
  | succ n ih => exact .cons h ih

mutual
theorem same_zero : (t : Ty) → t.Same t.zero t.zero
  | .basic _ => rfl
  | .named _ => rfl
  | .unsupported => rfl
  | .bytes => rfl
  | .chain c => by cases c <;> rfl
  | .ptr _ => .inl ⟨rfl, rfl⟩
  | .slice _ => .nil
  | .array n t => forall2_replicate _ _ _ (same_zero t) n
  | .map _ _ => ⟨List.nodup_nil, rfl, fun _ _ h => absurd h List.not_mem_nil, fun _ _ h => absurd h List.not_mem_nil⟩
  | .struct fs => sameFields_zero fs
  | .ref _ _ _ => rfl
theorem sameFields_zero : (fs : Fields) → fs.Same fs.zero fs.zero
  | .nil => trivial
  | .cons _ _ t fs => ⟨same_zero t, sameFields_zero fs⟩
end

mutual
theorem clean_zero : (t : Ty) → t.Clean t.zero
  | .basic _ => trivial
  | .named _ => trivial
  | .unsupported => trivial
  | .bytes => trivial
  | .chain c => by cases c <;> first | exact trivial | exact rfl
  | .ptr _ => fun _ h => nomatch h
  | .slice _ => fun _ h => absurd h List.not_mem_nil
  | .array n t => ⟨List.length_replicate .., fun _ h => (List.mem_replicate.1 h).2 ▸ clean_zero t⟩
  | .map _ _ => trivial
  | .struct fs => cleanFields_zero fs
  | .ref _ _ _ => trivial
theorem cleanFields_zero : (fs : Fields) → fs.Clean fs.zero
  | .nil => trivial
  | .cons _ _ t fs => ⟨clean_zero t, cleanFields_zero fs⟩
end

theorem clean_getD (t : Ty) (old : Option t.Val) (h : (Ty.ptr t).Clean old) : t.Clean (old.getD t.zero) := by
  cases old with
  | none => exact clean_zero t
  | some x => exact h x rfl

theorem clean_alloc (t : Ty) (x : t.Val) (h : t.Clean x) : t.Clean (t.alloc x) := by
  cases t
  case ptr t => intro y hy; cases hy; exact clean_getD t x h
  all_goals exact h

theorem decode_bytes_value (x old : Option Bytes) (bs : Bytes) (hw : (x.getD []).length < 2 ^ 28) (hb : Prefixed bs (x.getD [])) :
    ∃ w : Option Bytes, x.getD [] = w.getD [] ∧
      (decodeSlice (α := UInt8) 0 1 (fun x => viaDecFn chainDecoder (.basic .u8) .elem x (fun _ => readUint8) (fun x => pure (x, none))) old).Reads bs w := by
  obtain ⟨lb, h1, rfl⟩ := hb
  obtain ⟨ys, s, d⟩ := decodeSlice_layout (fun b bs => bs = [b]) Eq (fun _ => True) (0 : UInt8) 1
    (fun x => viaDecFn chainDecoder (.basic .u8) .elem x (fun _ => readUint8) (fun x => pure (x, none))) (x.getD [])
    (fun y _ o b _ hb => by subst hb; exact ⟨y, rfl, readUint8_reads y⟩) old hw (by unfold maxAlloc; omega) trivial (fun _ _ => trivial) (lb ++ x.getD [])
    ⟨lb, _, h1, by
      generalize x.getD [] = l
      induction l with
      | nil => exact .nil
      | cons a l ih => exact .cons (b := [a]) rfl ih, rfl⟩
  exact ⟨ys, forall2_eq _ (fun _ _ h => h) _ _ s, d⟩

theorem decodeBytes_reads (x old : Option Bytes) (bs : Bytes) (hw : (x.getD []).length < 2 ^ 28) (hb : Prefixed bs (x.getD [])) :
    (decodeBytes old).Reads bs (some (x.getD [])) := by
  obtain ⟨lb, h1, rfl⟩ := hb
  rw [minLeb_unique _ _ _ h1 (varuintBytes_minLeb _ hw)]
  refine Dec.Reads.bind (readVaruint_reads _ hw) ?_
  dsimp only
  rw [goInt_toUInt64 _ (by omega)]
  have := readBytes_try_reads (x.getD []).length (by unfold maxAlloc; omega)
    (fun r => pure (if ((x.getD []).length : Int) < 0 then none else some r.2.1, r.2.2)) (x.getD []) [] (some (x.getD [])) rfl
  rw [List.append_nil] at this
  refine this ?_
  rw [if_neg (by omega)]
  exact Dec.Reads.pure _

mutual
theorem decode_layout : (t : Ty) → (m : Mode) → (v old : t.Val) → (bs : Bytes) → m.Plain → t.Decodable m → t.Wf v → t.Clean old → t.Layout v bs →
    ∃ w, t.Same v w ∧ (decodeWith chainDecoder t m old).Reads bs w
  | .basic b, m, v, old, bs, hm, hd, hw, _, hl => by
    rcases hm with rfl | rfl | rfl
    · exact ⟨v, rfl, b.reads v bs hw hl⟩
    · exact ⟨v, rfl, b.reads v bs hw hl⟩
    · exact ⟨v, rfl, b.readsKind v old bs (hd rfl) hl⟩
  | .named b, m, v, old, bs, hm, hd, hw, _, hl => by
    rcases hm with rfl | rfl | rfl <;> exact ⟨v, rfl, b.readsKind v old bs hd hl⟩
  | .unsupported, _, _, _, _, _, hd, _, _, _ => hd.elim
  | .bytes, m, v, old, bs, hm, _, hw, _, hl => by
    rcases hm with rfl | rfl | rfl
    · exact ⟨some (Option.getD (α := Bytes) v []), rfl, decodeBytes_reads v old bs hw hl⟩
    · exact ⟨some (Option.getD (α := Bytes) v []), rfl, decodeBytes_reads v old bs hw hl⟩
    · exact decode_bytes_value v old bs hw hl
  | .chain c, m, v, old, bs, hm, _, hw, hc, hl => by
    obtain ⟨w, h1, h2⟩ := c.reads v old bs hw hc hl
    exact ⟨w, h1, Dec.Reads.of_eq (decode_chain c m hm old) h2⟩
  | .ptr t, m, v, old, bs, hm, hd, hw, hc, hl => by
    obtain ⟨x, rfl, hx⟩ := hw
    obtain ⟨y, hy, hl⟩ := hl
    cases hy
    have hold := clean_getD t old hc
    rcases hm with rfl | rfl | rfl
    · obtain ⟨w, h1, h2⟩ := decode_layout t .value x _ bs (.inr (.inr rfl)) hd hx hold hl
      exact ⟨(some w : Option t.Val), .inr ⟨x, w, rfl, rfl, h1⟩, h2.last rfl⟩
    · obtain ⟨w, h1, h2⟩ := decode_layout t .decode x _ bs (.inl rfl) hd hx hold hl
      exact ⟨(some w : Option t.Val), .inr ⟨x, w, rfl, rfl, h1⟩, h2.last rfl⟩
    · obtain ⟨w, h1, h2⟩ := decode_layout t .value x _ bs (.inr (.inr rfl)) hd hx hold hl
      exact ⟨(some w : Option t.Val), .inr ⟨x, w, rfl, rfl, h1⟩, h2.last rfl⟩
  | .slice t, m, v, old, bs, hm, hd, hw, hc, hl => by
    have := decodeSlice_layout t.Layout t.Same t.Clean t.zero t.size (decodeWith chainDecoder t .elem) (Option.getD (α := List t.Val) v [])
      (fun x hx o b ho hb => decode_layout t .elem x o b (.inr (.inl rfl)) hd (hw.2.2 x hx) ho hb) old hw.1 hw.2.1 (clean_zero t) hc bs hl
    rcases hm with rfl | rfl | rfl <;> exact this
  | .array n t, m, v, old, bs, hm, hd, hw, hc, hl => by
    have := decEach_layout t.Layout t.Same t.Clean (decodeWith chainDecoder t .elem) v
      (fun x hx o b ho hb => decode_layout t .elem x o b (.inr (.inl rfl)) hd (hw.2 x hx) ho hb) old (hc.1.trans hw.1.symm) hc.2 bs hl
    rcases hm with rfl | rfl | rfl <;> exact this
  | .map k e, m, v, old, bs, hm, hd, hw, _, hl => by
    have := decodeMap_layout (fun x bs => ∃ b1 b2, k.Layout x.1 b1 ∧ e.Layout x.2 b2 ∧ bs = b1 ++ b2) e.Same (decodeWith chainDecoder k .decode k.zero)
      (decodeWith chainDecoder e .decode e.zero) (Option.getD (α := List (k.Val × e.Val)) v [])
      (fun x hx b hb => by
        obtain ⟨b1, b2, l1, l2, rfl⟩ := hb
        obtain ⟨w1, s1, d1⟩ := decode_layout k .decode x.1 k.zero b1 (.inl rfl) hd.2.1 (hw.2.2 x hx).1 (clean_zero k) l1
        obtain ⟨w2, s2, d2⟩ := decode_layout e .decode x.2 e.zero b2 (.inl rfl) hd.2.2 (hw.2.2 x hx).2 (clean_zero e) l2
        exact ⟨b1, b2, w2, rfl, s2, key_same k hd.1 _ _ s1 ▸ d1, d2⟩) hw.1 hw.2.1 old bs hl
    rcases hm with rfl | rfl | rfl <;> exact this
  | .struct fs, m, v, old, bs, hm, hd, hw, hc, hl => by
    have := decodeFields_layout fs v old bs hd hw hc hl
    rcases hm with rfl | rfl | rfl <;> exact this
  | .ref _ _ _, _, _, _, _, _, _, hw, _, _ => hw.elim
theorem decodeFields_layout : (fs : Fields) → (v old : fs.Val) → (bs : Bytes) → fs.Decodable → fs.Wf v → fs.Clean old → fs.Layout v bs →
    ∃ w, fs.Same v w ∧ (decodeFields chainDecoder fs none old).Reads bs w
  | .nil, v, old, bs, _, _, _, hl => by cases hl; exact ⟨old, trivial, Dec.Reads.pure _⟩
  | .cons vis tag t fs, v, old, bs, hd, hw, hc, hl => by
    obtain ⟨x, xs⟩ : t.Val × fs.Val := v
    obtain ⟨o, os⟩ : t.Val × fs.Val := old
    obtain ⟨rfl, hd1, hd2, hd3⟩ := hd
    obtain ⟨b1, b2, l2, rfl, l1⟩ := hl
    obtain ⟨ws, s2, d2⟩ := decodeFields_layout fs xs os b2 hd3 hw.2 hc.2 l2
    have one : ∀ b, t.Wf x → t.Layout x b → ∃ w, t.Same x w ∧ (decodeWith chainDecoder t .elem (t.alloc o)).Reads b w := fun b hx hb =>
      decode_layout t .elem x _ b (.inr (.inl rfl)) hd2 hx (clean_alloc t o hc.1) hb
    have main : ∀ w : t.Val, t.Same x w → (decodeField .exported tag o (t.alloc o) t.zero (fun mode => decodeWith chainDecoder t mode (t.alloc o)) os none
        (fun err => decodeFields chainDecoder fs err os)).Reads (b1 ++ b2) (w, ws) →
        ∃ w, (Fields.cons .exported tag t fs).Same (x, xs) w ∧ (decodeFields chainDecoder (Fields.cons .exported tag t fs) none (o, os)).Reads (b1 ++ b2) w :=
      fun w s d => ⟨(w, ws), ⟨s, s2⟩, d⟩
    cases tag
    case variant => exact absurd rfl hd1
    case none =>
      obtain ⟨w, s1, d1⟩ := one b1 (hw.1.resolve_left fun h => nomatch h.1) l1
      exact main w s1 (Dec.Reads.bind d1 (d2.last rfl))
    case extension =>
      obtain ⟨w, s1, d1⟩ := one b1 (hw.1.resolve_left fun h => nomatch h.1) l1
      exact main w s1 (Dec.Reads.bind d1 (d2.last rfl))
    case optional =>
      rcases l1 with ⟨hz, rfl⟩ | ⟨hz, b, hb, rfl⟩
      · subst hz
        exact main t.zero (same_zero t) (Dec.Reads.bind (b1 := [0]) (readBool_reads false) (d2.last rfl))
      · obtain ⟨w, s1, d1⟩ := one b (hw.1.resolve_left fun h => hz h.2) hb
        exact main w s1 (Dec.Reads.bind (b1 := [1]) (readBool_reads true) (Dec.Reads.bind d1 (d2.last rfl)))
end

end Verif
