import Verif.Lemmas.AbiGrow
/-! C103: what changes of an ABI leave the types of it as they were. -/
namespace Verif

/-- Encode and Decode of a type depend only on the definitions that the type mentions, directly or indirectly. -/
theorem C103_local (a a' : Abi) (n : Bytes) (h : a.Agrees a' n) (fuel : Nat) : (∀ v, a.encode fuel n v = a'.encode fuel n v) ∧ a.decode fuel n = a'.decode fuel n := by
  unfold Abi.encode Abi.decode
  rw [resolve_agrees h]
  exact ⟨fun _ => rfl, rfl⟩

/-- Further definitions after those of the ABI change nothing about a type, unless one of them shadows a name that the type mentions. -/
theorem C103_appended (a a' : Abi) (ss : List AbiStruct) (vs : List AbiVariant) (ts : List AbiType) (ha : a.Appended a' ss vs ts) (n : Bytes)
    (h : ∀ m b arr ext opt, Reach a n m → Spelled m b arr ext opt → Unshadowed a ss vs ts b) (fuel : Nat) :
    (∀ v, a.encode fuel n v = a'.encode fuel n v) ∧ a.decode fuel n = a'.decode fuel n := by
  refine C103_local a a' n (fun m b arr ext opt hm hb => ?_) fuel
  have noS : (∀ s ∈ ss, s.name ≠ b) → (NoStruct a b ↔ NoStruct a' b) := fun h => by
    unfold NoStruct
    rw [ha.structs]
    exact ⟨fun g s hs => (List.mem_append.1 hs).elim (g s) (h s), fun g s hs => g s (List.mem_append_left _ hs)⟩
  have noV : (∀ s ∈ ss, s.name ≠ b) → (∀ v ∈ vs, v.name ≠ b) → (NoVariant a b ↔ NoVariant a' b) := fun h h' => by
    unfold NoVariant
    rw [noS h, ha.variants]
    exact and_congr_right fun _ => ⟨fun g s hs => (List.mem_append.1 hs).elim (g s) (h' s), fun g s hs => g s (List.mem_append_left _ hs)⟩
  have iffS : ∀ {s}, IsStruct a b s → ∀ s', IsStruct a b s' ↔ IsStruct a' b s' := fun {s} h s' => by
    have e : IsStruct a' b s := by unfold IsStruct; rw [ha.structs]; exact first_append_left h
    exact ⟨fun x => first_unique h x ▸ e, fun x => first_unique e x ▸ h⟩
  rcases h m b arr ext opt hm hb with ⟨s, hs⟩ | ⟨hS, h⟩
  · have no : ¬ NoStruct a b := fun x => x s (mem_of_first hs) hs.1
    have hs' := (iffS hs s).1 hs
    have no' : ¬ NoStruct a' b := fun x => x s (mem_of_first hs') hs'.1
    exact ⟨iffS hs, fun v => ⟨fun x => absurd x.1 no, fun x => absurd x.1 no'⟩, fun t => ⟨fun x => absurd x.1.1 no, fun x => absurd x.1.1 no'⟩⟩
  have hS' : ∀ s, IsStruct a b s ↔ IsStruct a' b s := fun s => by unfold IsStruct; rw [ha.structs]; exact (first_append_iff hS s).symm
  rcases h with ⟨v, hv⟩ | ⟨hV, h⟩
  · have hv' : IsVariant a' b v := ⟨(noS hS).1 hv.1, by rw [ha.variants]; exact first_append_left hv.2⟩
    have no : ¬ NoVariant a b := fun x => x.2 v (mem_of_first hv.2) hv.2.1
    have no' : ¬ NoVariant a' b := fun x => x.2 v (mem_of_first hv'.2) hv'.2.1
    exact ⟨hS', fun w => ⟨fun x => first_unique hv.2 x.2 ▸ hv', fun x => first_unique hv'.2 x.2 ▸ hv⟩, fun t => ⟨fun x => absurd x.1 no, fun x => absurd x.1 no'⟩⟩
  have hV' : ∀ v, IsVariant a b v ↔ IsVariant a' b v := fun v => by unfold IsVariant; rw [noS hS, ha.variants, first_append_iff hV v]
  refine ⟨hS', hV', fun t => ?_⟩
  rcases h with ⟨t0, ht⟩ | hT
  · have ht' : IsAlias a' b t0 := ⟨(noV hS hV).1 ht.1, by rw [ha.types]; exact first_append_left ht.2⟩
    exact ⟨fun x => first_unique ht.2 x.2 ▸ ht', fun x => first_unique ht'.2 x.2 ▸ ht⟩
  · unfold IsAlias
    rw [noV hS hV, ha.types, first_append_iff hT t]

/-- The order of the definitions does not matter as long as no two structs, no two variants and no two aliases have the same name. -/
theorem C103_order (a a' : Abi) (h1 : a.structs.Perm a'.structs) (h2 : a.variants.Perm a'.variants) (h3 : a.types.Perm a'.types) (n1 : (a.structs.map AbiStruct.name).Nodup)
    (n2 : (a.variants.map AbiVariant.name).Nodup) (n3 : (a.types.map AbiType.newTypeName).Nodup) (n : Bytes) (fuel : Nat) :
    (∀ v, a.encode fuel n v = a'.encode fuel n v) ∧ a.decode fuel n = a'.decode fuel n := by
  refine C103_local a a' n (fun m b arr ext opt _ _ => ?_) fuel
  have noS : NoStruct a b ↔ NoStruct a' b := by unfold NoStruct; exact forall_congr' fun s => by rw [h1.mem_iff]
  have noV : NoVariant a b ↔ NoVariant a' b := by unfold NoVariant; rw [noS]; exact and_congr_right fun _ => forall_congr' fun s => by rw [h2.mem_iff]
  refine ⟨fun s => first_perm h1 (fun x hx y hy ex ey => nodup_unique n1 hx hy (ex.trans ey.symm)) s, fun v => ?_, fun t => ?_⟩
  · unfold IsVariant
    rw [noS, first_perm h2 (fun x hx y hy ex ey => nodup_unique n2 hx hy (ex.trans ey.symm)) v]
  · unfold IsAlias
    rw [noV, first_perm h3 (fun x hx y hy ex ey => nodup_unique n3 hx hy (ex.trans ey.symm)) t]

/-- If variants get further alternatives after those they have, everything that could be decoded is decoded to the same value, with the same bytes left, and what stopped for want of input
stops with the same value. -/
theorem C103_variant_decode (a a' : Abi) (n : Bytes) (hn : a.NoShort n) (hn' : a'.NoShort n) (hg : a.Grows a' n) (fin : Err) (s : Bytes) (v : AV) (r : Bytes) (e : Option Err)
    (he : e = none ∨ e = some .eof) (fuel : Nat) (h : (a.decode fuel n).runE fin s = .ok (v, e) r) : ∃ N, ∀ k, N ≤ k → (a'.decode k n).runE fin s = .ok (v, e) r := by
  rcases he with rfl | rfl
  · exact (C89_decode a' n hn' fin s v r).2 (gives_grows hg .refl ((C89_sound a n hn fin fuel s v r).1 h))
  · obtain ⟨h', rfl⟩ := (C89_sound a n hn fin fuel s v r).2 h
    exact (C89_stops a' n hn' fin s v []).2 ⟨stopsIn_grows hg .refl h', rfl⟩

/-- And every value that could be encoded has the same encoding. -/
theorem C103_variant_encode (a a' : Abi) (ha : a.Real) (n : Bytes) (hn' : a'.NoShort n) (hg : a.Grows a' n) (v : AV) (hv : v.Real) (bs : Bytes) (fuel : Nat)
    (h : (a.encode fuel n v).Writes bs) : a'.Writes n v bs :=
  writes_of_wire sends_builtin hn' (wire_grows hg .refl (wire_of_writes ha builtin_sends hv h))

/-! ## Examples -/

/-- A list of items, each a number or a name -/
def oldAbi : Abi where
  structs := [⟨asc "list", [], [⟨asc "items", asc "item[]"⟩, ⟨asc "memo", asc "text"⟩]⟩]
  variants := [⟨asc "item", [asc "uint8", asc "name"]⟩]
  types := [⟨asc "text", asc "string"⟩]

/-- The same with a struct that comes later -/
def appendedAbi : Abi where
  structs := oldAbi.structs ++ [⟨asc "other", [], [⟨asc "x", asc "list"⟩]⟩, ⟨asc "list", [], []⟩]
  variants := oldAbi.variants
  types := oldAbi.types ++ [⟨asc "text", asc "uint8"⟩]

/-- The same with a further alternative -/
def grownAbi : Abi where
  structs := oldAbi.structs
  variants := [⟨asc "item", [asc "uint8", asc "name", asc "list"]⟩]
  types := oldAbi.types

theorem reach_base_of {a : Abi} {n : Bytes} {l : List Bytes} (h : (match resolve a n with
    | .val ts => ts.all fun e => decide (e.2.baseName ∈ l)
    | _ => false) = true) {m b : Bytes} {arr ext opt : Bool} (hm : Reach a n m) (hs : Spelled m b arr ext opt) : b ∈ l := by
  cases hr : resolve a n with
  | panic => rw [hr] at h; cases h
  | diverge => rw [hr] at h; cases h
  | val ts =>
    rw [hr] at h
    obtain ⟨h1, h2⟩ := C46_describes a n ts hr
    obtain ⟨t, ht⟩ := (h1 m).2 hm
    have he := (spelled_unique hs (h2 m t ht).2.1).1
    unfold Types.get at ht
    obtain ⟨e, he', rfl⟩ := Option.map_eq_some_iff.1 ht
    have := List.all_eq_true.1 h e (List.mem_of_find?_eq_some he')
    rw [he]
    exact of_decide_eq_true this

/-- A struct that mentions the old one, a second struct of the same name and a second alias of the same name change nothing about the list. -/
example (fuel : Nat) : (∀ v, oldAbi.encode fuel (asc "list") v = appendedAbi.encode fuel (asc "list") v) ∧ oldAbi.decode fuel (asc "list") = appendedAbi.decode fuel (asc "list") := by
  refine C103_appended oldAbi appendedAbi _ [] [⟨asc "text", asc "uint8"⟩] ⟨rfl, (List.append_nil _).symm, rfl⟩ _ (fun m b arr ext opt hm hs => ?_) fuel
  have := reach_base_of (a := oldAbi) (n := asc "list") (l := [asc "list", asc "item", asc "text", asc "uint8", asc "name", asc "string"]) (by decide +kernel) hm hs
  simp only [List.mem_cons, List.not_mem_nil, or_false] at this
  have t : ∀ b ∈ [asc "uint8", asc "name", asc "string"], Unshadowed oldAbi [⟨asc "other", [], [⟨asc "x", asc "list"⟩]⟩, ⟨asc "list", [], []⟩] [] [⟨asc "text", asc "uint8"⟩] b := fun b hb =>
    .inr ⟨by revert b; decide +kernel, .inr ⟨(fun _ h => nomatch h), .inr (by revert b; decide +kernel)⟩⟩
  rcases this with rfl | rfl | rfl | rfl | rfl | rfl
  · exact .inl ⟨_, (getStruct_iff ..).1 rfl⟩
  · exact .inr ⟨by decide +kernel, .inl ⟨_, (getStruct_none ..).1 rfl, (getVariant_iff ..).1 rfl⟩⟩
  · exact .inr ⟨by decide +kernel, .inr ⟨(fun _ h => nomatch h), .inl ⟨_, ⟨(getStruct_none ..).1 rfl, (getVariant_none ..).1 rfl⟩, (getType_iff ..).1 rfl⟩⟩⟩
  · exact t _ (by decide)
  · exact t _ (by decide)
  · exact t _ (by decide)

example : resolve oldAbi (asc "list") ≠ .panic ∧ resolve appendedAbi (asc "list") = resolve oldAbi (asc "list") := by decide +kernel

theorem grownAbi_grows (n : Bytes) : oldAbi.Grows grownAbi n := by
  intro m b arr ext opt _ _
  have noV : NoVariant oldAbi b ↔ NoVariant grownAbi b := by simp [NoVariant, NoStruct, oldAbi, grownAbi]
  refine ⟨fun s => Iff.rfl, fun v hv => ?_, fun t ht => ⟨noV.1 ht.1, ht.2⟩, fun h => ⟨noV.1 h.1, h.2⟩⟩
  have hm := mem_of_first hv.2
  rw [show oldAbi.variants = [⟨asc "item", [asc "uint8", asc "name"]⟩] from rfl, List.mem_singleton] at hm
  subst hm
  exact ⟨⟨asc "item", [asc "uint8", asc "name", asc "list"]⟩, ⟨hv.1, hv.2.1, [], [], rfl, (fun _ h => nomatch h)⟩, ⟨[asc "list"], rfl⟩⟩

example : oldAbi.NoShort (asc "list") ∧ grownAbi.NoShort (asc "list") ∧ oldAbi.Real :=
  ⟨noShort_of (by decide +kernel), noShort_of (by decide +kernel), by unfold Abi.Real; decide +kernel⟩

/-- [7], "hi" read with either ABI; a list within a list only with the new one -/
example : (oldAbi.decode 9 (asc "list")).run [1, 0, 7, 2, 104, 105] =
      .ok (.map [(asc "items", .slice [.slice [.basic .string (asc "uint8"), .basic .u8 (7 : UInt8)]]), (asc "memo", .basic .string (asc "hi"))], none) [] ∧
    (grownAbi.decode 9 (asc "list")).run [1, 0, 7, 2, 104, 105] =
      .ok (.map [(asc "items", .slice [.slice [.basic .string (asc "uint8"), .basic .u8 (7 : UInt8)]]), (asc "memo", .basic .string (asc "hi"))], none) [] ∧
    (grownAbi.decode 9 (asc "list")).run [1, 2, 0, 0, 0] =
      .ok (.map [(asc "items", .slice [.slice [.basic .string (asc "list"), .map [(asc "items", .slice []), (asc "memo", .basic .string [])]]]), (asc "memo", .basic .string [])], none) [] ∧
    ∃ e, (oldAbi.decode 9 (asc "list")).run [1, 2, 0, 0, 0] = .ok (.nil, some e) [0, 0, 0] := ⟨rfl, rfl, rfl, _, rfl⟩

/-- Without that condition the claim is false: a new alias with the name of a builtin type changes the meaning of structs that were there before, without an error; the same
bytes are read as something else. -/
theorem C103_shadow_violated : ∃ (a : Abi) (extra : AbiType), a.NoShort (asc "pair") ∧ ∀ fuel, 4 ≤ fuel →
    (a.decode fuel (asc "pair")).run [1, 65] = .ok (.map [(asc "x", .basic .u8 (1 : UInt8))], none) [65] ∧
    (Abi.decode { a with types := a.types ++ [extra] } fuel (asc "pair")).run [1, 65] = .ok (.map [(asc "x", .basic .string (asc "A"))], none) [] := by
  refine ⟨{ structs := [⟨asc "pair", [], [⟨asc "x", asc "uint8"⟩]⟩] }, ⟨asc "uint8", asc "string"⟩, noShort_of (by decide +kernel), fun fuel hf => ?_⟩
  obtain ⟨k, rfl⟩ : ∃ k, fuel = k + 4 := ⟨fuel - 4, by omega⟩
  exact ⟨rfl, rfl⟩

/-- An alternative that is added before the others changes the meaning of what was written before. -/
theorem C103_front_violated : ∃ (s : Bytes) (v w : AV), v ≠ w ∧
    (Abi.decode { variants := [⟨asc "item", [asc "uint8", asc "int8"]⟩] } 9 (asc "item")).run s = .ok (v, none) [] ∧
    (Abi.decode { variants := [⟨asc "item", [asc "bool", asc "uint8", asc "int8"]⟩] } 9 (asc "item")).run s = .ok (w, none) [] :=
  ⟨[1, 5], .slice [.basic .string (asc "int8"), .basic .i8 (5 : Int8)], .slice [.basic .string (asc "uint8"), .basic .u8 (5 : UInt8)], (fun h => by
    simp only [AV.slice.injEq, List.cons.injEq] at h
    cases h.2.1), rfl, rfl⟩

end Verif
