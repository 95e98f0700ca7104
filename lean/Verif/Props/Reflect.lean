import Verif.Lemmas.Reflect
/-! # Encode and Decode of Go values by reflection -/
namespace Verif

/-! ## C40: round-trip -/

/-- What Encode writes: the wire form of the value. -/
theorem C40_layout (t : Ty) (v : t.Val) (he : t.Encodable) (hw : t.Wf v) : ∃ bs, t.Layout v bs ∧ (encode t v).Writes bs := encode_layout t v he hw

/-- Decode reads the wire form of a value, whatever the destination held: the result is the value up to nil and empty slices. -/
theorem C40_reads (t : Ty) (v old : t.Val) (bs : Bytes) (hd : t.Decodable .decode) (hw : t.Wf v) (hc : t.Clean old) (hl : t.Layout v bs) :
    ∃ w, t.Same v w ∧ (decode t old).Reads bs w := decode_layout t .decode v old bs (.inl rfl) hd hw hc hl

theorem C40_roundtrip_partial (t : Ty) (v : t.Val) (he : t.Encodable) (hd : t.Decodable .decode) (hw : t.Wf v) :
    ∃ bs, (encode t v).Writes bs ∧ ∀ old, t.Clean old → ∃ w, t.Same v w ∧ (decode t old).Reads bs w := by
  obtain ⟨bs, h1, h2⟩ := C40_layout t v he hw
  exact ⟨bs, h2, fun old hc => C40_reads t v old bs hd hw hc h1⟩

/-- For types without pointers, slices and maps the value comes back exactly. -/
theorem C40_exact (t : Ty) (v : t.Val) (hk : t.KeyType) (he : t.Encodable) (hd : t.Decodable .decode) (hw : t.Wf v) :
    ∃ bs, (encode t v).Writes bs ∧ (decode t t.zero).Reads bs v := by
  obtain ⟨bs, h1, h2⟩ := C40_roundtrip_partial t v he hd hw
  obtain ⟨w, h3, h4⟩ := h2 t.zero (clean_zero t)
  exact ⟨bs, h1, key_same t hk v w h3 ▸ h4⟩

/-- struct { A uint16; B []*Name; C map[string]bool; D *int32 `eosio:"optional"`; E [2]Asset; F uint } -/
def sampleTy : Ty := .struct <| .cons .exported .none (.basic .u16) <| .cons .exported .none (.slice (.ptr (.chain .name))) <|
  .cons .exported .none (.map (.basic .string) (.basic .bool)) <| .cons .exported .optional (.ptr (.basic .i32)) <|
  .cons .exported .none (.array 2 (.chain .asset)) <| .cons .exported .none (.basic .uint) .nil
def sampleVal : sampleTy.Val :=
  ((0x0102 : UInt16), (some [some (7 : UInt64)] : Option (List (Option UInt64))), (some [(asc "a", true)] : Option (List (Bytes × Bool))), (none : Option Int32),
    ([⟨1, 2⟩, ⟨-1, 3⟩] : List Asset), (300 : UInt64), ())

example : sampleTy.Encodable ∧ sampleTy.Decodable .decode ∧ sampleTy.Wf sampleVal := by
  refine ⟨by simp [sampleTy, Ty.Encodable, Fields.Encodable], by simp [sampleTy, Ty.Decodable, Fields.Decodable, Ty.KeyType], ?_⟩
  refine ⟨.inr trivial, .inr ⟨by decide, by decide, fun x hx => ?_⟩, .inr ⟨by decide, List.nodup_cons.2 ⟨by decide, List.nodup_nil⟩, fun x hx => ?_⟩, .inl ⟨rfl, rfl⟩, .inr ⟨rfl, fun x hx => trivial⟩,
    .inr (show (300 : UInt64).toNat < 2 ^ 28 by decide), trivial⟩
  · exact ⟨(7 : UInt64), List.mem_singleton.1 hx, trivial⟩
  · have : x = (asc "a", true) := List.mem_singleton.1 hx
    subst this
    exact ⟨(by decide : (asc "a").length < 2 ^ 28), trivial⟩

example : (encode sampleTy sampleVal).Writes [2, 1, 1, 7, 0, 0, 0, 0, 0, 0, 0, 1, 1, 97, 1, 0, 1, 0, 0, 0, 0, 0, 0, 0, 2, 0, 0, 0, 0, 0, 0, 0,
    255, 255, 255, 255, 255, 255, 255, 255, 3, 0, 0, 0, 0, 0, 0, 0, 172, 2] := by decide +kernel

/-- Decoding through a pointer to a pointer (`Decode(&p)` with p a *string, a map[K]*string, …) fails for all basic types but 32 and 64 bit integers, before reading. -/
theorem C40_pointer (b : Basic) (hb : ¬ b.Wide) (old : Option b.Val) : decode (.ptr (.basic b)) old = pure ((some (old.getD b.zero) : Option b.Val), some errUnsupportedType) := by
  cases b <;> first | exact absurd trivial hb | rfl

/-- Types made of the supported parts whose values can be encoded but not decoded, pointers that cannot be encoded, and declared types. -/
theorem C40_violated :
    (∃ (t : Ty) (v : t.Val) (bs : Bytes), t.Encodable ∧ t.Wf v ∧ (encode t v).Writes bs ∧ ∀ old fin bs w r, (decode t old).runE fin bs ≠ .ok (w, none) r) ∧
    (∃ (t : Ty) (v : t.Val) (bs : Bytes) (e : Err), t.Encodable ∧ t.Decodable .decode ∧ t.Wf v ∧ ¬ t.Decodable .value ∧
      (encode (.map (.basic .u8) (.ptr t)) (some [((0 : UInt8), some v)] : Option (List (UInt8 × Option t.Val)))).Writes bs ∧
      (decode (.map (.basic .u8) (.ptr t)) (none : Option (List (UInt8 × Option t.Val)))).run bs = .ok ((some [] : Option (List (UInt8 × Option t.Val))), some e) (bs.drop 2)) ∧
    (∃ e, encode (.ptr (.basic .u64)) (none : Option UInt64) = pure (some e)) ∧
    (∀ w, ∃ e, encode (.named .u8) w = pure (some e)) := by
  refine ⟨⟨.ptr (.basic .string), (some (asc "a") : Option Bytes), [1, 97], trivial, ⟨asc "a", rfl, (by decide : (asc "a").length < 2 ^ 28)⟩, by decide +kernel, ?_⟩, ?_, ?_, ?_⟩
  · intro old fin bs w r h
    rw [C40_pointer .string id old] at h
    exact nomatch (congrArg Prod.snd (Out.ok.inj h).1 : some errUnsupportedType = none)
  · exact ⟨.basic .string, asc "a", [1, 0, 1, 97], errUnsupportedType, trivial, (fun h => nomatch h), (by decide : (asc "a").length < 2 ^ 28), (fun h => h rfl), by decide +kernel, by decide +kernel⟩
  · exact ⟨_, rfl⟩
  · exact fun w => ⟨_, rfl⟩

/-! ## C41: maps -/

theorem sameMap_perm {α β : Type} (S : β → β → Prop) (m m' w : List (α × β)) (hp : m.Perm m') (h : SameMap S m' w) : SameMap S m w :=
  ⟨h.1, hp.length_eq.trans h.2.1, fun k x hx => h.2.2.1 k x (hp.subset hx), fun k y hy => by
    obtain ⟨x, hx, hs⟩ := h.2.2.2 k y hy
    exact ⟨x, hp.symm.subset hx, hs⟩⟩

/-- Whatever the order `m'` in which Go iterates over the map m: it encodes, and decoding gives m back. -/
theorem C41_order (k e : Ty) (m m' : List (k.Val × e.Val)) (hp : m.Perm m') (he : k.Encodable ∧ e.Encodable) (hd : (Ty.map k e).Decodable .decode)
    (hw : (Ty.map k e).Wf (some m : Option (List (k.Val × e.Val)))) :
    ∃ bs, (encode (.map k e) (some m' : Option (List (k.Val × e.Val)))).Writes bs ∧
      ∀ old, ∃ w : List (k.Val × e.Val), SameMap e.Same m w ∧ (decode (.map k e) old).Reads bs (some w : Option (List (k.Val × e.Val))) := by
  obtain ⟨h1, h2, h3⟩ := hw
  obtain ⟨bs, h4, h5⟩ := C40_roundtrip_partial (.map k e) (some m' : Option (List (k.Val × e.Val))) he hd
    ⟨hp.length_eq ▸ h1, (hp.map Prod.fst).nodup_iff.1 h2, fun x hx => h3 x (hp.symm.subset hx)⟩
  refine ⟨bs, h4, fun old => ?_⟩
  obtain ⟨w, h6, h7⟩ := h5 old trivial
  refine ⟨Option.getD (α := List (k.Val × e.Val)) w [], sameMap_perm _ _ _ _ hp h6, ?_⟩
  have := h7 .eof []
  obtain ⟨⟨l, er⟩, r, h8, h9⟩ := Dec.runE_bind_ok (show (Dec.runE _ (readVaruint >>= _) _) = _ from this)
  cases er with
  | some e => cases h9
  | none =>
    obtain ⟨⟨mm, er⟩, r', h8, h9⟩ := Dec.runE_bind_ok (show (Dec.runE _ (mapLoop _ _ _ _ >>= _) _) = _ from h9)
    cases h9
    exact h7

theorem mapSet_keys {α β : Type} [DecidableEq α] (k : α) (v : β) (m : List (α × β)) :
    (mapSet k v m).map Prod.fst = if k ∈ m.map Prod.fst then m.map Prod.fst else m.map Prod.fst ++ [k] := by
  induction m with
  | nil => rfl
  | cons x m ih =>
    obtain ⟨k', v'⟩ := x
    unfold mapSet
    by_cases h : k' = k
    · subst h; simp
    · rw [if_neg h, List.map_cons, ih]
      have hk : k ≠ k' := fun e => h e.symm
      rw [List.map_cons]
      by_cases hm : k ∈ m.map Prod.fst
      · rw [if_pos hm, if_pos (List.mem_cons_of_mem _ hm)]
      · rw [if_neg hm, if_neg (fun h => (List.mem_cons.1 h).elim hk hm)]; rfl

theorem mapSet_mem {α β : Type} [DecidableEq α] (k : α) (v : β) (m : List (α × β)) (hn : (m.map Prod.fst).Nodup) (k' : α) (y : β) :
    (k', y) ∈ mapSet k v m ↔ (k' = k ∧ y = v) ∨ (k' ≠ k ∧ (k', y) ∈ m) := by
  induction m with
  | nil => simp [mapSet]
  | cons x m ih =>
    obtain ⟨k0, v0⟩ := x
    simp only [List.map_cons, List.nodup_cons] at hn
    unfold mapSet
    by_cases h : k0 = k
    · subst h
      rw [if_pos rfl]
      have h0 : ∀ y, (k0, y) ∉ m := fun y hy => hn.1 (List.mem_map.2 ⟨_, hy, rfl⟩)
      simp only [List.mem_cons, Prod.mk.injEq]
      grind
    · rw [if_neg h]
      simp only [List.mem_cons, ih hn.2, Prod.mk.injEq]
      grind

/-- The entry of key k that comes last in `ys`. -/
def LastEntry {α β : Type} (ys : List (α × β)) (k : α) (y : β) : Prop := ∃ pre post, ys = pre ++ (k, y) :: post ∧ ∀ z, (k, z) ∉ post

theorem lastEntry_snoc {α β : Type} (ys : List (α × β)) (k' : α) (y' : β) (k : α) (y : β) :
    LastEntry (ys ++ [(k', y')]) k y ↔ (k = k' ∧ y = y') ∨ (k ≠ k' ∧ LastEntry ys k y) := by
  constructor
  · rintro ⟨pre, post, h1, h2⟩
    rcases List.eq_nil_or_concat post with rfl | ⟨post, z, rfl⟩
    · obtain ⟨_, h⟩ := List.append_inj' h1 rfl
      cases h
      exact .inl ⟨rfl, rfl⟩
    · rw [List.concat_eq_append] at h1 h2
      rw [← List.cons_append, ← List.append_assoc] at h1
      obtain ⟨h, h'⟩ := List.append_inj' h1 rfl
      cases h'
      refine .inr ⟨fun e => h2 y' (by simp [e]), pre, post, h, fun z hz => h2 z (by simp [hz])⟩
  · rintro (⟨rfl, rfl⟩ | ⟨hne, pre, post, rfl, h2⟩)
    · exact ⟨ys, [], rfl, by simp⟩
    · exact ⟨pre, post ++ [(k', y')], by simp, fun z hz => by
        rcases List.mem_append.1 hz with h | h
        · exact h2 z h
        · exact hne (congrArg Prod.fst (List.mem_singleton.1 h))⟩

theorem foldl_mapSet {α β : Type} [DecidableEq α] (ys : List (α × β)) (m : List (α × β)) (h : m = ys.foldl (fun m e => mapSet e.1 e.2 m) []) :
    (m.map Prod.fst).Nodup ∧ ∀ k y, (k, y) ∈ m ↔ LastEntry ys k y := by
  subst h
  generalize hl : ys.length = n
  induction n generalizing ys with
  | zero =>
    obtain rfl := List.length_eq_zero_iff.1 hl
    exact ⟨List.nodup_nil, fun k y => ⟨fun h => absurd h List.not_mem_nil, fun ⟨_, _, h, _⟩ => by simp at h⟩⟩
  | succ n ih =>
    rcases List.eq_nil_or_concat ys with rfl | ⟨ys', ⟨k', y'⟩, rfl⟩
    · simp at hl
    rw [List.concat_eq_append] at hl ⊢
    have ih := ih ys' (by simpa using hl)
    rw [List.foldl_append, List.foldl_cons, List.foldl_nil]
    constructor
    · rw [mapSet_keys]
      split
      · exact ih.1
      · rename_i hk
        refine List.nodup_append.2 ⟨ih.1, by simp, ?_⟩
        intro a ha b hb
        rw [List.mem_singleton.1 hb]
        rintro rfl
        exact hk ha
    · intro k y
      rw [mapSet_mem _ _ _ ih.1, lastEntry_snoc, ih.2]

theorem mapLoop_fold {α β : Type} [DecidableEq α] (R : α × β → Bytes → Prop) (S : β → β → Prop) (dk : Dec (α × Option Err)) (dv : Dec (β × Option Err)) (xs : List (α × β))
    (h : ∀ x ∈ xs, ∀ b, R x b → ∃ b1 b2 y, b = b1 ++ b2 ∧ S x.2 y ∧ dk.Reads b1 x.1 ∧ dv.Reads b2 y) (bs : Bytes) (hb : Each R xs bs) (m : List (α × β)) :
    ∃ ys : List (α × β), Forall2 (fun x y => x.1 = y.1 ∧ S x.2 y.2) xs ys ∧ (mapLoop dk dv xs.length m).Reads bs (ys.foldl (fun m e => mapSet e.1 e.2 m) m) := by
  induction hb generalizing m with
  | nil => exact ⟨[], .nil, Dec.Reads.pure m⟩
  | @cons x xs b bs r1 r2 ih =>
    obtain ⟨b1, b2, y, rfl, s1, d1, d2⟩ := h x (by simp) b r1
    obtain ⟨ys, s2, d3⟩ := ih (fun z hz => h z (by simp [hz])) (mapSet x.1 y m)
    refine ⟨(x.1, y) :: ys, .cons ⟨rfl, s1⟩ s2, ?_⟩
    rw [List.append_assoc]
    exact Dec.Reads.bind d1 (Dec.Reads.bind d2 d3)

/-- Input with any sequence of entries, keys repeated or not: the decoded map has each key once, with the last value given for it (`ys` are the entries as decoded). -/
theorem C41_duplicates (k e : Ty) (xs : List (k.Val × e.Val)) (bs : Bytes) (hd : (Ty.map k e).Decodable .decode) (hl : xs.length < 2 ^ 28)
    (hw : ∀ x ∈ xs, k.Wf x.1 ∧ e.Wf x.2) (hb : (Ty.map k e).Layout (some xs : Option (List (k.Val × e.Val))) bs) :
    ∃ ys m : List (k.Val × e.Val), Forall2 (fun x y => x.1 = y.1 ∧ e.Same x.2 y.2) xs ys ∧ (m.map Prod.fst).Nodup ∧ (∀ key y, (key, y) ∈ m ↔ LastEntry ys key y) ∧
      ∀ old, (decode (.map k e) old).Reads bs (some m : Option (List (k.Val × e.Val))) := by
  obtain ⟨lb, es, h1, h2, rfl⟩ := hb
  change MinLeb lb xs.length at h1
  obtain ⟨ys, h3, h4⟩ := mapLoop_fold _ e.Same (decodeWith chainDecoder k .decode k.zero) (decodeWith chainDecoder e .decode e.zero) xs (fun x hx b hb => by
    obtain ⟨b1, b2, l1, l2, rfl⟩ := hb
    obtain ⟨w1, s1, d1⟩ := decode_layout k .decode x.1 k.zero b1 (.inl rfl) hd.2.1 (hw x hx).1 (clean_zero k) l1
    obtain ⟨w2, s2, d2⟩ := decode_layout e .decode x.2 e.zero b2 (.inl rfl) hd.2.2 (hw x hx).2 (clean_zero e) l2
    exact ⟨b1, b2, w2, rfl, s2, key_same k hd.1 _ _ s1 ▸ d1, d2⟩) es h2 []
  obtain ⟨h5, h6⟩ := foldl_mapSet ys _ rfl
  refine ⟨ys, _, h3, h5, h6, fun old => ?_⟩
  rw [minLeb_unique _ _ _ h1 (varuintBytes_minLeb _ hl)]
  refine Dec.Reads.bind (p := readVaruint) (readVaruint_reads _ hl) ?_
  dsimp only
  rw [goInt_toUInt64 _ (by omega), Int.toNat_natCast]
  exact h4.last rfl

example : (decode (.map (.basic .u8) (.basic .u8)) (none : Option (List (UInt8 × UInt8)))).run [3, 1, 2, 5, 6, 1, 4] =
    .ok ((some [((1 : UInt8), (4 : UInt8)), ((5 : UInt8), (6 : UInt8))] : Option (List (UInt8 × UInt8))), none) [] := by decide +kernel

end Verif
