import Verif.Lemmas.AbiExtend
import Verif.Props.AbiGrow
/-! C105: structs that get a further field at the end, binary extensions among them. -/
namespace Verif

/-- Decode returns v and nil and leaves r of the input s, given enough stack. -/
def Abi.DecodesTo (a : Abi) (fin : Err) (n s : Bytes) (v : AV) (r : Bytes) : Prop := ∃ N, ∀ fuel, N ≤ fuel → (a.decode fuel n).runE fin s = .ok (v, none) r

theorem noShort_field {a : Abi} {n : Bytes} (hn : a.NoShort n) (hs : Spelled n n false false false) {fs : List AbiField} (hf : FieldsOf a n fs) {g : AbiField} (hg : g ∈ fs) : a.NoShort g.type :=
  fun m hm => hn m (by
    have h := reach_fields (n := n) hf .refl hs g hg
    clear hg hf
    induction hm with
    | refl => exact h
    | step _ h' ih => exact .step ih h')

/-- Decode with the new definition reads what Decode with the old one reads, then the new field, and adds it to the map. -/
theorem C105_decode (a a' : Abi) (n : Bytes) (fs : List AbiField) (f : AbiField) (he : a.Extends a' n fs f) (hn : a.NoShort n) (hn' : a'.NoShort n) (fin : Err) (s : Bytes) (v : AV) (r : Bytes) :
    a'.DecodesTo fin n s v r ↔ ∃ m r' x, a.DecodesTo fin n s (.map m) r' ∧ a'.DecodesTo fin f.type r' x r ∧ v = .map (m ++ [(f.name, x)]) := by
  have hf := noShort_field hn' he.name he.new (g := f) (by simp)
  unfold Abi.DecodesTo
  simp only [C89_decode a n hn, C89_decode a' n hn', C89_decode a' f.type hf]
  rw [gives_struct he.name (by simp) he.new]
  have fresh : ∀ {s ys m}, GivesMembers a' fin fs s ys m → f.name ∉ ys.map Prod.fst := fun h hk => by
    rw [givesMembers_names h] at hk
    obtain ⟨g, hg, e⟩ := List.mem_map.1 hk
    exact he.fresh g hg e
  constructor
  · rintro ⟨xs, m, h1, h2, rfl⟩
    obtain ⟨ys, x, r', h3, h4, rfl⟩ := givesMembers_snoc.1 h1
    obtain ⟨m', h5, rfl⟩ := (gathers_snoc (fresh h3)).1 h2
    exact ⟨m', r', x, (gives_struct he.name he.some he.old).2 ⟨ys, m', (givesMembers_agrees he.same).2 h3, h5, rfl⟩, h4, rfl⟩
  · rintro ⟨m, r', x, h1, h2, rfl⟩
    obtain ⟨ys, m', h3, h4, e⟩ := (gives_struct he.name he.some he.old).1 h1
    cases e
    have h3 := (givesMembers_agrees he.same).1 h3
    exact ⟨_, _, givesMembers_snoc.2 ⟨ys, x, r', h3, h2, rfl⟩, (gathers_snoc (fresh h3)).2 ⟨m, h4, rfl⟩, rfl⟩

/-- What was written before the change is read with the new definition: all old fields as before and the new field as what stands for its absence. -/
theorem C105_old_data (a a' : Abi) (n : Bytes) (fs : List AbiField) (f : AbiField) (he : a.Extends a' n fs f) (hn : a.NoShort n) (hn' : a'.NoShort n) (b : Bytes) (arr : Bool)
    (hs : Spelled f.type b arr true false) (hc : a'.Closed f.type) (hg : ∀ m, Reach a' f.type m → Grounded a' m) (s : Bytes) (m : List (Bytes × AV)) (h : a.DecodesTo .eof n s (.map m) []) :
    ∃ x, Missing a' f.type x ∧ a'.DecodesTo .eof n s (.map (m ++ [(f.name, x)])) [] := by
  obtain ⟨N, x, h1, h2⟩ := C54_absent a' f.type b arr hs (noShort_field hn' he.name he.new (by simp)) hc hg
  exact ⟨x, h1, (C105_decode a a' n fs f he hn hn' .eof s _ []).2 ⟨m, [], x, h, ⟨N, h2⟩, rfl⟩⟩

/-- What is written after the change is read with the old definition: all old fields as with the new one, and the bytes of the new field are left. -/
theorem C105_new_data (a a' : Abi) (n : Bytes) (fs : List AbiField) (f : AbiField) (he : a.Extends a' n fs f) (hn : a.NoShort n) (hn' : a'.NoShort n) (fin : Err) (s : Bytes) (v : AV) (r : Bytes)
    (h : a'.DecodesTo fin n s v r) : ∃ m x r', v = .map (m ++ [(f.name, x)]) ∧ a.DecodesTo fin n s (.map m) r' ∧ r <:+ r' ∧ a'.DecodesTo fin f.type r' x r := by
  obtain ⟨m, r', x, h1, h2, rfl⟩ := (C105_decode a a' n fs f he hn hn' fin s v r).1 h
  exact ⟨m, x, r', rfl, h1, gives_suffix ((C89_decode a' _ (noShort_field hn' he.name he.new (by simp)) fin r' x r).1 h2), h2⟩

/-- Encode with the new definition writes what Encode with the old one writes of the same map, then the new field. -/
theorem C105_encode (a a' : Abi) (n : Bytes) (fs : List AbiField) (f : AbiField) (he : a.Extends a' n fs f) (hn : a.NoShort n) (hn' : a'.NoShort n) (ha : a.Real) (ha' : a'.Real) (v : AV)
    (hv : v.Real) (bs : Bytes) : a'.Writes n v bs ↔ ∃ m x b1 b2, v = .map m ∧ Entry m f.name x ∧ a.Writes n v b1 ∧ a'.Writes f.type x b2 ∧ bs = b1 ++ b2 := by
  have hf := noShort_field hn' he.name he.new (g := f) (by simp)
  constructor
  · rintro ⟨N, h⟩
    obtain ⟨m, h1, rfl⟩ := (wire_struct he.name (by simp) he.new).1 (wire_of_writes ha' builtin_sends hv (h N (Nat.le_refl _)))
    obtain ⟨x, b1, b2, h2, h3, h4, rfl⟩ := members_snoc.1 h1
    exact ⟨m, x, b1, b2, rfl, h3, writes_of_wire sends_builtin hn ((wire_struct he.name he.some he.old).2 ⟨m, (members_agrees he.same).2 h2, rfl⟩), writes_of_wire sends_builtin hf h4, rfl⟩
  · rintro ⟨m, x, b1, b2, rfl, h3, ⟨N, h1⟩, ⟨N', h2⟩, rfl⟩
    obtain ⟨m', h4, e⟩ := (wire_struct he.name he.some he.old).1 (wire_of_writes ha builtin_sends hv (h1 N (Nat.le_refl _)))
    cases e
    have h5 := wire_of_writes ha' builtin_sends (real_entry (by simpa [AV.Real] using hv) h3) (h2 N' (Nat.le_refl _))
    exact writes_of_wire sends_builtin hn' ((wire_struct he.name (by simp) he.new).2 ⟨m, members_snoc.2 ⟨x, b1, b2, (members_agrees he.same).1 h4, h3, h5, rfl⟩, rfl⟩)

/-- An extension can be left out of the data but not of a value to be encoded: no map without it is written, whatever the old definition made of it. -/
theorem C105_leave_out_violated (a a' : Abi) (n : Bytes) (fs : List AbiField) (f : AbiField) (he : a.Extends a' n fs f) (hn : a.NoShort n) (hn' : a'.NoShort n) (ha : a.Real) (ha' : a'.Real)
    (b : Bytes) (arr ext : Bool) (hs : Spelled f.type b arr ext false) (m : List (Bytes × AV)) (hv : (AV.map m).Real) (hm : ∀ e ∈ m, e.1 ≠ f.name) (bs : Bytes) : ¬ a'.Writes n (.map m) bs := by
  intro h
  obtain ⟨m', x, b1, b2, e, h1, -, ⟨N, h2⟩, -⟩ := (C105_encode a a' n fs f he hn hn' ha ha' _ hv bs).1 h
  cases e
  rcases h1 with h1 | ⟨-, rfl⟩
  · exact hm _ (mem_of_first h1) rfl
  · cases wire_of_writes ha' builtin_sends (by simp [AV.Real]) (h2 N (Nat.le_refl _)) with
    | absent h => exact absurd (spelled_unique hs h).2.2.2 (by decide)
    | present _ h _ => exact h rfl
    | plain _ h _ => exact h rfl

/-! ## Examples -/

/-- An item, and a list of items with a text after it -/
def itemAbi : Abi where
  structs := [⟨asc "item", [], [⟨asc "id", asc "uint8"⟩, ⟨asc "note", asc "string"⟩]⟩, ⟨asc "list", [], [⟨asc "items", asc "item[]"⟩, ⟨asc "memo", asc "string"⟩]⟩]

/-- The same with a level in every item -/
def levelAbi : Abi where
  structs := [⟨asc "item", [], [⟨asc "id", asc "uint8"⟩, ⟨asc "note", asc "string"⟩, ⟨asc "level", asc "uint8$"⟩]⟩,
    ⟨asc "list", [], [⟨asc "items", asc "item[]"⟩, ⟨asc "memo", asc "string"⟩]⟩]

theorem itemAbi_extends : itemAbi.Extends levelAbi (asc "item") [⟨asc "id", asc "uint8"⟩, ⟨asc "note", asc "string"⟩] ⟨asc "level", asc "uint8$"⟩ where
  name := (parse_spelled ..).1 (by decide +kernel)
  some := by simp
  old := .root (s := ⟨asc "item", [], _⟩) ((getStruct_iff ..).1 (by decide +kernel)) rfl
  new := .root (s := ⟨asc "item", [], _⟩) ((getStruct_iff ..).1 (by decide +kernel)) rfl
  fresh := by decide
  same := by
    have key : ∀ n ∈ [asc "uint8", asc "string"], itemAbi.Agrees levelAbi n := by
      intro n hn m b arr ext opt hm hs
      have hb : b ∈ [asc "uint8", asc "string"] := by
        simp only [List.mem_cons, List.not_mem_nil, or_false] at hn
        rcases hn with rfl | rfl
        · exact reach_base_of (by decide +kernel) hm hs
        · exact reach_base_of (by decide +kernel) hm hs
      have no : ∀ b ∈ [asc "uint8", asc "string"], (∀ s ∈ itemAbi.structs, s.name ≠ b) ∧ ∀ s ∈ levelAbi.structs, s.name ≠ b := by decide +kernel
      obtain ⟨h1, h2⟩ := no b hb
      exact ⟨fun s => ⟨fun h => absurd h.1 (h1 s (mem_of_first h)), fun h => absurd h.1 (h2 s (mem_of_first h))⟩,
        fun v => ⟨fun h => absurd (mem_of_first h.2) (by simp [itemAbi]), fun h => absurd (mem_of_first h.2) (by simp [levelAbi])⟩,
        fun v => ⟨fun h => absurd (mem_of_first h.2) (by simp [itemAbi]), fun h => absurd (mem_of_first h.2) (by simp [levelAbi])⟩⟩
    intro g hg
    simp only [List.mem_cons, List.not_mem_nil, or_false] at hg
    rcases hg with rfl | rfl
    · exact key _ (by decide)
    · exact key _ (by decide)

example : itemAbi.NoShort (asc "item") ∧ levelAbi.NoShort (asc "item") ∧ itemAbi.Real ∧ levelAbi.Real :=
  ⟨noShort_of (by decide +kernel), noShort_of (by decide +kernel), by unfold Abi.Real; decide +kernel, by unfold Abi.Real; decide +kernel⟩

/-- 7, "hi" written before the change and 7, "hi", 3 written after it, read with either definition -/
example :
    (itemAbi.decode 9 (asc "item")).run [7, 2, 104, 105] = .ok (.map [(asc "id", .basic .u8 (7 : UInt8)), (asc "note", .basic .string (asc "hi"))], none) [] ∧
    (levelAbi.decode 9 (asc "item")).run [7, 2, 104, 105] =
      .ok (.map [(asc "id", .basic .u8 (7 : UInt8)), (asc "note", .basic .string (asc "hi")), (asc "level", .basic .u8 (0 : UInt8))], none) [] ∧
    (itemAbi.decode 9 (asc "item")).run [7, 2, 104, 105, 3] = .ok (.map [(asc "id", .basic .u8 (7 : UInt8)), (asc "note", .basic .string (asc "hi"))], none) [3] ∧
    (levelAbi.decode 9 (asc "item")).run [7, 2, 104, 105, 3] =
      .ok (.map [(asc "id", .basic .u8 (7 : UInt8)), (asc "note", .basic .string (asc "hi")), (asc "level", .basic .u8 (3 : UInt8))], none) [] := ⟨rfl, rfl, rfl, rfl⟩

/-- The hypotheses of C105_old_data about the new field -/
example : Spelled (asc "uint8$") (asc "uint8") false true false ∧ levelAbi.Closed (asc "uint8$") ∧ ∀ m, Reach levelAbi (asc "uint8$") m → Grounded levelAbi m := by
  refine ⟨(parse_spelled ..).1 (by decide +kernel), fun m b arr ext opt hm hs => ?_, grounded_of_rank (ts := _) (n := asc "uint8$") rfl (fun _ => 0) (by decide +kernel)⟩
  have := reach_base_of (l := [asc "uint8"]) (by decide +kernel) hm hs
  rw [List.mem_singleton.1 this]
  exact .inr (.inr (.inr (.inl ⟨.u8, by decide⟩)))

/-- The map without a level: written with the old definition, refused with the new one -/
example : (itemAbi.encode 9 (asc "item") (.map [(asc "id", .basic .u8 (7 : UInt8)), (asc "note", .basic .string (asc "hi"))])).run = .ok none [7, 2, 104, 105] ∧
    (levelAbi.encode 9 (asc "item") (.map [(asc "id", .basic .u8 (7 : UInt8)), (asc "note", .basic .string (asc "hi"))])).run = .ok (some errFoundNil) [7, 2, 104, 105] ∧
    (levelAbi.encode 9 (asc "item") (.map [(asc "level", .basic .u8 (3 : UInt8)), (asc "id", .basic .u8 (7 : UInt8)), (asc "note", .basic .string (asc "hi"))])).run =
      .ok none [7, 2, 104, 105, 3] := ⟨rfl, rfl, rfl⟩

/-- Where the struct is not the last thing in the data the change is not compatible and nothing says so: the same bytes, read to the end and without an error by both definitions, have
another text in a field that comes after the struct. -/
theorem C105_inside_violated : ∃ (a a' : Abi) (fs : List AbiField) (f : AbiField) (s : Bytes) (x x' y y' : AV), a.Extends a' (asc "item") fs f ∧ (∃ b, Spelled f.type b false true false) ∧
    (∀ fuel, 9 ≤ fuel → (a.decode fuel (asc "list")).run s = .ok (.map [(asc "items", x), (asc "memo", y)], none) [] ∧
      (a'.decode fuel (asc "list")).run s = .ok (.map [(asc "items", x'), (asc "memo", y')], none) []) ∧ y ≠ y' := by
  refine ⟨itemAbi, levelAbi, _, _, [1, 5, 0, 1, 0], .slice [.map [(asc "id", .basic .u8 (5 : UInt8)), (asc "note", .basic .string [])]],
    .slice [.map [(asc "id", .basic .u8 (5 : UInt8)), (asc "note", .basic .string []), (asc "level", .basic .u8 (1 : UInt8))]],
    .basic .string ([0] : Bytes), .basic .string ([] : Bytes), itemAbi_extends, ⟨asc "uint8", ?_⟩, ?_, ?_⟩
  · exact (parse_spelled ..).1 (by decide +kernel)
  · intro fuel hf
    obtain ⟨k, rfl⟩ := Nat.exists_eq_add_of_le' hf
    exact ⟨rfl, rfl⟩
  · intro h; injection h with _ h; exact absurd h (by decide)

end Verif
