import Verif.Model.Embed
import Verif.Props.Args
import Verif.Lemmas.Run
/-! # C84: structs that embed types of package chain -/
namespace Verif

/-- The fields agree wherever they are not an embedded one with methods -/
def Fields.Others : (fs : Fields) → (emb : List Bool) → fs.Val → fs.Val → Prop
  | .nil, _, _, _ => True
  | .cons _ _ _ _, [], v, w => v = w
  | .cons _ _ t fs, e :: emb, v, w =>
    let v : t.Val × fs.Val := v
    let w : t.Val × fs.Val := w
    (e = true ∧ t.hasMethods = true ∨ v.1 = w.1) ∧ fs.Others emb v.2 w.2

/-- x, of type c, is an embedded field, by value or behind a pointer -/
inductive Fields.Embeds (c : ChainTy) (x : c.Val) : (fs : Fields) → List Bool → fs.Val → Prop
  | value (vis : Vis) (tag : Tag) (fs : Fields) (emb : List Bool) (xs : fs.Val) : Fields.Embeds c x (.cons vis tag (.chain c) fs) (true :: emb) ((x, xs) : c.Val × fs.Val)
  | pointer (vis : Vis) (tag : Tag) (fs : Fields) (emb : List Bool) (xs : fs.Val) :
    Fields.Embeds c x (.cons vis tag (.ptr (.chain c)) fs) (true :: emb) (((some x : Option c.Val), xs) : Option c.Val × fs.Val)
  | later (vis : Vis) (tag : Tag) (t : Ty) (y : t.Val) (e : Bool) {fs : Fields} {emb : List Bool} {xs : fs.Val} (h : Fields.Embeds c x fs emb xs) :
    Fields.Embeds c x (.cons vis tag t fs) (e :: emb) ((y, xs) : t.Val × fs.Val)

/-- The claim: embedded or not, the fields are encoded and decoded one after the other -/
def FieldByField (fs : Fields) (emb : List Bool) : Prop :=
  (∀ addr v, (encodeEmbedding fs emb addr v).run = (encode (.struct fs) v).run) ∧
  ∀ named old fin bs, (decodeEmbedding fs emb named old).runE fin bs = (decode (.struct fs) old).runE fin bs

/-- It holds of structs that embed none or more than one type of package chain -/
theorem C84_fields_partial (fs : Fields) (emb : List Bool) (h : fs.promoters emb ≠ 1) : FieldByField fs emb := by
  constructor
  · intro addr v
    exact congrArg Enc.run (if_neg fun h' => h h'.1)
  · intro named old fin bs
    exact congrArg (fun p => Dec.runE fin p bs) (if_neg fun h' => h h'.1)

theorem promoters_pos {c : ChainTy} {x : c.Val} {fs : Fields} {emb : List Bool} {v : fs.Val} (h : fs.Embeds c x emb v) : 0 < fs.promoters emb := by
  induction h with
  | value => simp [Fields.promoters, Ty.hasMethods]
  | pointer => simp [Fields.promoters, Ty.hasMethods]
  | later vis tag t y e h ih => simp only [Fields.promoters]; omega

theorem marshalPromoted_eq {c : ChainTy} {x : c.Val} {fs : Fields} {emb : List Bool} {v : fs.Val} (h : fs.Embeds c x emb v) (h1 : fs.promoters emb = 1) :
    fs.marshalPromoted emb v = c.marshal x := by
  induction h with
  | value => rfl
  | pointer => rfl
  | later vis tag t y e h ih =>
    have hp := promoters_pos h
    simp only [Fields.promoters] at h1
    have he : ¬ (e && t.hasMethods) = true := fun he => by rw [if_pos he] at h1; omega
    rw [if_neg he, Nat.zero_add] at h1
    exact (if_neg he).trans (ih h1)

/-- Encode of a pointer to a struct that embeds one type of package chain writes that field and drops all others, whatever they hold -/
theorem C84_encode_violated (c : ChainTy) (x : c.Val) (fs : Fields) (emb : List Bool) (v : fs.Val) (h : fs.Embeds c x emb v) (h1 : fs.promoters emb = 1) :
    encodeEmbedding fs emb true v = c.marshal x := by
  exact (if_pos ⟨h1, .inl rfl⟩).trans (marshalPromoted_eq h h1)

theorem valueMarshaler_eq {c : ChainTy} {x : c.Val} {fs : Fields} {emb : List Bool} {v : fs.Val} (h : fs.Embeds c x emb v) (h1 : fs.promoters emb = 1) (hc : c.byValue = true) :
    fs.valueMarshaler emb = true := by
  induction h with
  | value => simp [Fields.valueMarshaler, Ty.hasMethods, hc]
  | pointer => simp [Fields.valueMarshaler, Ty.hasMethods]
  | later vis tag t y e h ih =>
    have hp := promoters_pos h
    simp only [Fields.promoters] at h1
    have he : ¬ (e && t.hasMethods) = true := fun he => by rw [if_pos he] at h1; omega
    rw [if_neg he, Nat.zero_add] at h1
    exact (if_neg he).trans (ih h1)

/-- So does Encode of the struct itself, unless the type is Asset, ExtendedAsset or a checksum -/
theorem C84_encode_value_violated (c : ChainTy) (hc : c.byValue = true) (x : c.Val) (fs : Fields) (emb : List Bool) (v : fs.Val) (h : fs.Embeds c x emb v)
    (h1 : fs.promoters emb = 1) : encodeEmbedding fs emb false v = c.marshal x := by
  exact (if_pos ⟨h1, .inr (valueMarshaler_eq h h1 hc)⟩).trans (marshalPromoted_eq h h1)

theorem others_refl : (fs : Fields) → (emb : List Bool) → (v : fs.Val) → fs.Others emb v v
  | .nil, _, _ => trivial
  | .cons _ _ _ _, [], _ => rfl
  | .cons _ _ _ fs, _ :: emb, v => ⟨.inr rfl, others_refl fs emb v.2⟩

theorem map_run {α β : Type} {p : Dec α} {f : α → β} {fin : Err} {bs r : Bytes} {b : β} (h : (Dec.bind p fun a => Dec.ret (f a)).runE fin bs = .ok b r) :
    ∃ a, p.runE fin bs = .ok a r ∧ b = f a := by
  rw [Dec.runE_bind'] at h
  cases hp : p.runE fin bs with
  | ok a r' => rw [hp] at h; cases h; exact ⟨a, rfl, rfl⟩
  | panic w => rw [hp] at h; cases h
  | diverge => rw [hp] at h; cases h

theorem run_map {α β : Type} {p : Dec α} (f : α → β) {fin : Err} {bs r : Bytes} {a : α} (h : p.runE fin bs = .ok a r) :
    (Dec.bind p fun a => Dec.ret (f a)).runE fin bs = .ok (f a) r := by
  rw [Dec.runE_bind', h]; rfl

theorem unmarshalPromoted_skip (vis : Vis) (tag : Tag) (t : Ty) (fs : Fields) (e : Bool) (emb : List Bool) (x : t.Val) (xs : fs.Val) (he : ¬ (e && t.hasMethods) = true) :
    (Fields.cons vis tag t fs).unmarshalPromoted (e :: emb) ((x, xs) : t.Val × fs.Val) =
      Dec.bind (fs.unmarshalPromoted emb xs) fun p => Dec.ret (((x, p.1) : t.Val × fs.Val), p.2) := if_neg he

theorem unmarshalPromoted_others : (fs : Fields) → (emb : List Bool) → (old : fs.Val) → ∀ {fin bs v err r}, (fs.unmarshalPromoted emb old).runE fin bs = .ok (v, err) r →
    fs.Others emb old v
  | .nil, _, _, _, _, _, _, _, _ => trivial
  | .cons _ _ _ _, [], old, _, _, _, _, _, h => by cases h; rfl
  | .cons vis tag t fs, e :: emb, (x, xs), fin, bs, v, err, r, h => by
    by_cases he : (e && t.hasMethods) = true
    · obtain ⟨he, ht⟩ := Bool.and_eq_true_iff.mp he
      subst he
      refine ⟨.inl ⟨rfl, ht⟩, ?_⟩
      have hv : v.2 = xs := by
        cases t with
        | chain c =>
          have h' : (Dec.bind (c.unmarshal x) fun p => Dec.ret (((p.1, xs) : c.Val × fs.Val), p.2)).runE fin bs = .ok (v, err) r := h
          obtain ⟨p, -, hp⟩ := map_run h'
          cases hp; rfl
        | ptr t =>
          cases t with
          | chain c =>
            cases x with
            | some x =>
              have h' : (Dec.bind (c.unmarshal x) fun p => Dec.ret ((((some p.1 : Option c.Val), xs) : Option c.Val × fs.Val), p.2)).runE fin bs = .ok (v, err) r := h
              obtain ⟨p, -, hp⟩ := map_run h'
              cases hp; rfl
            | none =>
              have h' : (Dec.bind c.unmarshalNil fun p => Dec.ret ((((none : Option c.Val), xs) : Option c.Val × fs.Val), p)).runE fin bs = .ok (v, err) r := h
              obtain ⟨p, -, hp⟩ := map_run h'
              cases hp; rfl
          | _ => cases ht
        | _ => cases ht
      show fs.Others emb xs v.2
      rw [hv]
      exact others_refl fs emb xs
    · rw [unmarshalPromoted_skip vis tag t fs e emb x xs he] at h
      obtain ⟨⟨ys, err'⟩, hp, hv⟩ := map_run h
      cases hv
      exact ⟨.inr rfl, unmarshalPromoted_others fs emb xs hp⟩

theorem unmarshalPromoted_embeds {c : ChainTy} {x : c.Val} {fs : Fields} {emb : List Bool} {old : fs.Val} (h : fs.Embeds c x emb old) (h1 : fs.promoters emb = 1)
    {fin : Err} {bs r : Bytes} {y : c.Val} {err : Option Err} (hy : (c.unmarshal x).runE fin bs = .ok (y, err) r) :
    ∃ v, (fs.unmarshalPromoted emb old).runE fin bs = .ok (v, err) r ∧ fs.Embeds c y emb v := by
  induction h with
  | value vis tag fs emb xs => exact ⟨((y, xs) : c.Val × fs.Val), run_map (fun p : c.Val × Option Err => (((p.1, xs) : c.Val × fs.Val), p.2)) hy, .value vis tag fs emb xs⟩
  | pointer vis tag fs emb xs => exact ⟨((some y, xs) : Option c.Val × fs.Val), run_map (fun p : c.Val × Option Err => ((((some p.1 : Option c.Val), xs) : Option c.Val × fs.Val), p.2)) hy, .pointer vis tag fs emb xs⟩
  | @later vis tag t z e fs emb xs h ih =>
    have hp := promoters_pos h
    simp only [Fields.promoters] at h1
    have he : ¬ (e && t.hasMethods) = true := fun he => by rw [if_pos he] at h1; omega
    rw [if_neg he, Nat.zero_add] at h1
    obtain ⟨v, hv, hev⟩ := ih h1
    refine ⟨_, ?_, .later vis tag t z e hev⟩
    rw [unmarshalPromoted_skip vis tag t fs e emb z xs he]
    exact run_map (fun p => (((z, p.1) : t.Val × fs.Val), p.2)) hv

/-- Decode into a struct of a declared type that embeds one type of package chain reads that field and leaves all others as they were -/
theorem C84_decode_violated (c : ChainTy) (x : c.Val) (fs : Fields) (emb : List Bool) (old : fs.Val) (h : fs.Embeds c x emb old) (h1 : fs.promoters emb = 1) (fin : Err)
    (bs r : Bytes) (y : c.Val) (err : Option Err) (hy : (c.unmarshal x).runE fin bs = .ok (y, err) r) :
    ∃ v, (decodeEmbedding fs emb true old).runE fin bs = .ok (v, err) r ∧ fs.Embeds c y emb v ∧ fs.Others emb old v := by
  have he : decodeEmbedding fs emb true old = fs.unmarshalPromoted emb old := if_pos ⟨h1, rfl⟩
  rw [he]
  obtain ⟨v, hv, hev⟩ := unmarshalPromoted_embeds h h1 hy
  exact ⟨v, hv, hev, unmarshalPromoted_others fs emb old hv⟩

/-- Where the claim holds of a struct that embeds one type: Encode of the struct itself, if MarshalABI has a pointer receiver and the field is no pointer; Decode,
if the struct type is not declared -/
theorem C84_one_partial (fs : Fields) (emb : List Bool) :
    (fs.valueMarshaler emb = false → ∀ v, (encodeEmbedding fs emb false v).run = (encode (.struct fs) v).run) ∧
    ∀ old fin bs, (decodeEmbedding fs emb false old).runE fin bs = (decode (.struct fs) old).runE fin bs := by
  constructor
  · intro hv v
    exact congrArg Enc.run (if_neg fun h => by rcases h.2 with h | h; · cases h
                                               · rw [hv] at h; cases h)
  · intro old fin bs
    exact congrArg (fun p => Dec.runE fin p bs) (if_neg fun h => by cases h.2)

/-- An embedded field is a nil pointer to the type c -/
inductive Fields.EmbedsNil (c : ChainTy) : (fs : Fields) → List Bool → fs.Val → Prop
  | here (vis : Vis) (tag : Tag) (fs : Fields) (emb : List Bool) (xs : fs.Val) :
    Fields.EmbedsNil c (.cons vis tag (.ptr (.chain c)) fs) (true :: emb) (((none : Option c.Val), xs) : Option c.Val × fs.Val)
  | later (vis : Vis) (tag : Tag) (t : Ty) (y : t.Val) (e : Bool) {fs : Fields} {emb : List Bool} {xs : fs.Val} (h : Fields.EmbedsNil c fs emb xs) :
    Fields.EmbedsNil c (.cons vis tag t fs) (e :: emb) ((y, xs) : t.Val × fs.Val)

theorem promoters_nil {c : ChainTy} {fs : Fields} {emb : List Bool} {v : fs.Val} (h : fs.EmbedsNil c emb v) : 0 < fs.promoters emb := by
  induction h with
  | here => simp [Fields.promoters, Ty.hasMethods]
  | later vis tag t y e h ih => simp only [Fields.promoters]; omega

theorem embedsNil_skip {c : ChainTy} {t : Ty} {e : Bool} {fs : Fields} {emb : List Bool} {xs : fs.Val} (vis : Vis) (tag : Tag) (h : fs.EmbedsNil c emb xs)
    (h1 : (Fields.cons vis tag t fs).promoters (e :: emb) = 1) : ¬ (e && t.hasMethods) = true ∧ fs.promoters emb = 1 := by
  have hp := promoters_nil h
  simp only [Fields.promoters] at h1
  have he : ¬ (e && t.hasMethods) = true := fun he => by rw [if_pos he] at h1; omega
  rw [if_neg he, Nat.zero_add] at h1
  exact ⟨he, h1⟩

theorem marshalPromoted_nil {c : ChainTy} {fs : Fields} {emb : List Bool} {v : fs.Val} (h : fs.EmbedsNil c emb v) (h1 : fs.promoters emb = 1) :
    fs.valueMarshaler emb = true ∧ ∃ w, fs.marshalPromoted emb v = .panic w := by
  induction h with
  | here => exact ⟨rfl, _, rfl⟩
  | later vis tag t y e h ih =>
    obtain ⟨he, h1⟩ := embedsNil_skip vis tag h h1
    obtain ⟨h2, w, h3⟩ := ih h1
    exact ⟨(if_neg he).trans h2, w, (if_neg he).trans h3⟩

/-- If the embedded field is a nil pointer, Encode panics before it writes anything, although the other fields could be written -/
theorem C84_encode_nil_violated (c : ChainTy) (fs : Fields) (emb : List Bool) (v : fs.Val) (h : fs.EmbedsNil c emb v) (h1 : fs.promoters emb = 1) (addr : Bool) :
    ∃ w, encodeEmbedding fs emb addr v = .panic w := by
  obtain ⟨h2, w, h3⟩ := marshalPromoted_nil h h1
  exact ⟨w, (if_pos ⟨h1, .inr h2⟩).trans h3⟩

theorem unmarshalPromoted_nil {c : ChainTy} {fs : Fields} {emb : List Bool} {old : fs.Val} (h : fs.EmbedsNil c emb old) (h1 : fs.promoters emb = 1) (fin : Err) (bs : Bytes) :
    (∀ err r, c.unmarshalNil.runE fin bs = .ok err r → (fs.unmarshalPromoted emb old).runE fin bs = .ok (old, err) r) ∧
    (∀ w, c.unmarshalNil.runE fin bs = .panic w → (fs.unmarshalPromoted emb old).runE fin bs = .panic w) ∧
    ∀ v err r, (fs.unmarshalPromoted emb old).runE fin bs = .ok (v, err) r → c.unmarshalNil.runE fin bs = .ok err r := by
  induction h with
  | here vis tag fs emb xs =>
    refine ⟨fun err r he => ?_, fun w he => ?_, fun v err r he => ?_⟩
    · exact run_map (fun p => ((((none : Option c.Val), xs) : Option c.Val × fs.Val), p)) he
    · show (Dec.bind c.unmarshalNil _).runE fin bs = _
      rw [Dec.runE_bind', he]; rfl
    · have h' : (Dec.bind c.unmarshalNil fun p => Dec.ret ((((none : Option c.Val), xs) : Option c.Val × fs.Val), p)).runE fin bs = .ok (v, err) r := he
      obtain ⟨p, hp, hq⟩ := map_run h'
      cases hq; exact hp
  | @later vis tag t y e fs emb xs h ih =>
    obtain ⟨he, h1⟩ := embedsNil_skip vis tag h h1
    rw [unmarshalPromoted_skip vis tag t fs e emb y xs he]
    obtain ⟨i1, i2, i3⟩ := ih h1
    refine ⟨fun err r he => ?_, fun w he => ?_, fun v err r he => ?_⟩
    · exact run_map (fun p => (((y, p.1) : t.Val × fs.Val), p.2)) (i1 err r he)
    · show (Dec.bind (fs.unmarshalPromoted emb xs) fun p => Dec.ret (((y, p.1) : t.Val × fs.Val), p.2)).runE fin bs = .panic w
      rw [Dec.runE_bind', i2 w he]; rfl
    · obtain ⟨p, hp, hq⟩ := map_run he
      cases hq; exact i3 _ _ _ hp

/-- Decode into such a struct never succeeds: there is an error of the reader, with no field changed, or a panic -/
theorem C84_decode_nil_violated (c : ChainTy) (fs : Fields) (emb : List Bool) (old : fs.Val) (h : fs.EmbedsNil c emb old) (h1 : fs.promoters emb = 1) (fin : Err) :
    (∀ bs v err r, (decodeEmbedding fs emb true old).runE fin bs = .ok (v, err) r → v = old ∧ ∃ e, err = some e) ∧
    ∃ bs w, (decodeEmbedding fs emb true old).runE fin bs = .panic w := by
  have he : decodeEmbedding fs emb true old = fs.unmarshalPromoted emb old := if_pos ⟨h1, rfl⟩
  rw [he]
  constructor
  · intro bs v err r hv
    obtain ⟨i1, -, i3⟩ := unmarshalPromoted_nil h h1 fin bs
    have hn := i3 v err r hv
    obtain ⟨_, e, he, -⟩ := unmarshalNil_like c c.zero hn
    have := (i1 err r hn).symm.trans hv
    cases this
    exact ⟨rfl, e, he⟩
  · refine ⟨List.replicate 64 0, nilDeref, (unmarshalPromoted_nil h h1 fin _).2.1 _ ?_⟩
    cases c <;> rfl

/-- struct { chain.Name; Amount uint64 } -/
def namedAmount : Fields := .cons .exported .none (.chain .name) (.cons .exported .none (.basic .u64) .nil)
/-- struct { chain.Asset; Memo uint8 } -/
def assetMemo : Fields := .cons .exported .none (.chain .asset) (.cons .exported .none (.basic .u8) .nil)

/-- Two values of struct { chain.Name; Amount uint64 } with one encoding, neither with the amount in it; what was written cannot be read back if the type is not
declared, as all fields are expected then -/
theorem C84_violated : ¬ FieldByField namedAmount [true, false] ∧
    (∀ addr (n a : UInt64), (encodeEmbedding namedAmount [true, false] addr ((n, a, ()) : UInt64 × UInt64 × Unit)).run = .ok none (leBytes 8 n.toNat)) ∧
    (∀ (n : UInt64) old, ∃ v e, (decodeEmbedding namedAmount [true, false] false old).run (leBytes 8 n.toNat) = .ok (v, some e) []) := by
  have he : ∀ addr (n a : UInt64), (encodeEmbedding namedAmount [true, false] addr ((n, a, ()) : UInt64 × UInt64 × Unit)).run = .ok none (leBytes 8 n.toNat) := by
    intro addr n a
    cases addr
    · exact congrArg Enc.run (C84_encode_value_violated .name rfl n namedAmount [true, false] _ (.value _ _ (.cons .exported .none (.basic .u64) .nil) _ ((a, ()) : UInt64 × Unit)) rfl)
    · exact congrArg Enc.run (C84_encode_violated .name n namedAmount [true, false] _ (.value _ _ (.cons .exported .none (.basic .u64) .nil) _ ((a, ()) : UInt64 × Unit)) rfl)
  refine ⟨fun h => ?_, he, fun n old => ⟨_, _, rfl⟩⟩
  have h1 := h.1 true ((1, 2, ()) : UInt64 × UInt64 × Unit)
  rw [he] at h1
  have h2 : (encode (.struct namedAmount) ((1, 2, ()) : UInt64 × UInt64 × Unit)).run = .ok none (leBytes 8 1 ++ leBytes 8 2) := rfl
  rw [h2] at h1
  exact absurd h1 (by decide)

/-- struct { chain.Asset; Memo uint8 }: Encode(s) writes both fields, Encode(&s) the asset only; Decode(&s) reads the asset only, and leaves the byte of Memo unread
without an error -/
theorem C84_asset_violated (a : Asset) (m : UInt8) (old : assetMemo.Val) : ∃ w,
    (encodeEmbedding assetMemo [true, false] false ((a, m, ()) : Asset × UInt8 × Unit)).run = .ok none (w ++ [m]) ∧
    (encodeEmbedding assetMemo [true, false] true ((a, m, ()) : Asset × UInt8 × Unit)).run = .ok none w ∧
    ∃ v, (decodeEmbedding assetMemo [true, false] true old).run (w ++ [m]) = .ok (v, none) [m] := by
  refine ⟨leBytes 8 a.value.toUInt64.toNat ++ leBytes 8 a.symbol.toNat, rfl, rfl, ?_⟩
  exact ⟨_, rfl⟩

/-! The hypotheses are met -/

/-- struct { Memo string; *chain.Name }, with the name "a" -/
example : encodeEmbedding (.cons .exported .none (.basic .string) (.cons .exported .none (.ptr (.chain .name)) .nil)) [false, true] true
    ((asc "memo", some 6, ()) : Bytes × Option UInt64 × Unit) = Name.marshal 6 :=
  C84_encode_violated .name (6 : UInt64) _ _ _ (.later _ _ (.basic .string) (asc "memo") _ (.pointer _ _ .nil _ ())) rfl
/-- struct { chain.Name; chain.Symbol } is not concerned -/
example : FieldByField (.cons .exported .none (.chain .name) (.cons .exported .none (.chain .symbol) .nil)) [true, true] := C84_fields_partial _ _ (by decide)
example : assetMemo.valueMarshaler [true, false] = false := rfl
example : ∃ v, (decodeEmbedding namedAmount [true, false] true ((1, 2, ()) : UInt64 × UInt64 × Unit)).run [7, 0, 0, 0, 0, 0, 0, 0, 9] = .ok (v, none) [9] ∧
    namedAmount.Others [true, false] ((1, 2, ()) : UInt64 × UInt64 × Unit) v := by
  obtain ⟨v, h, -, ho⟩ := C84_decode_violated .name (1 : UInt64) namedAmount [true, false] _ (.value _ _ (.cons .exported .none (.basic .u64) .nil) _ ((2, ()) : UInt64 × Unit)) rfl .eof
    [7, 0, 0, 0, 0, 0, 0, 0, 9] [9] (7 : UInt64) none rfl
  exact ⟨v, h, ho⟩
/-- struct { Memo string; *chain.Name } with a nil pointer -/
example (addr : Bool) : ∃ w, encodeEmbedding (.cons .exported .none (.basic .string) (.cons .exported .none (.ptr (.chain .name)) .nil)) [false, true] addr
    ((asc "memo", none, ()) : Bytes × Option UInt64 × Unit) = .panic w :=
  C84_encode_nil_violated .name _ _ _ (.later _ _ (.basic .string) (asc "memo") _ (.here _ _ .nil _ ())) rfl addr

end Verif
