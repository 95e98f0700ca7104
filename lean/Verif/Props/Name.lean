import Verif.Lemmas.Name
/-! # C11–C14: names -/
namespace Verif

/-- C11. NewName(n.String()) == n. -/
theorem C11_name_roundtrip (n : UInt64) : newName (Name.string n) = n := by
  apply UInt64.toNat_inj.mp
  unfold newName Name.string
  rw [stringToName_toNat, nameValue_nameToString]
  rw [length_nameToString]
  have := trimUpTo_le (nameLoop 13 0 n []) 13
  omega

/-- MarshalText/UnmarshalText of Name. -/
theorem C11_name_text_roundtrip (n : UInt64) : Name.unmarshalText (Name.marshalText n) = (n, none) := by
  unfold Name.unmarshalText Name.marshalText
  rw [C11_name_roundtrip]

example : newName (asc "eosio") = 6138663577826885632 ∧ Name.string 6138663577826885632 = asc "eosio" := by decide +kernel

/-- C12, first half: every name prints as a canonical string. -/
theorem C12_string_canonical (n : UInt64) : CanonicalName (Name.string n) := by
  unfold Name.string
  have hl := trimUpTo_le (nameLoop 13 0 n []) 13
  have hlen := length_nameToString n
  have key : ∀ i c, (nameToString n)[i]? = some c → i < 13 ∧ c = alphaChar (digitOf n.toNat i) := by
    intro i c h
    have hi : i < (nameToString n).length := by
      by_contra hc
      rw [List.getElem?_eq_none (by omega)] at h; simp at h
    have h13 : i < 13 := by omega
    have := nameToString_getD n i h13
    rw [List.getD_eq_getElem?_getD, h] at this
    exact ⟨h13, by simpa using this⟩
  refine ⟨by omega, ?_, ?_, ?_⟩
  · intro c hc
    obtain ⟨i, hi⟩ := List.mem_iff_getElem?.mp hc
    obtain ⟨_, rfl⟩ := key i c hi
    exact alphaChar_mem _ (digitOf_lt _ _)
  · intro c hc
    obtain ⟨_, rfl⟩ := key 12 c hc
    exact alphaChar_mem16 _ (by unfold digitOf; simp; omega)
  · intro h
    rw [List.getLast?_eq_getElem?, hlen] at h
    obtain ⟨h13, h2⟩ := key _ _ h
    have hne : trimUpTo (nameLoop 13 0 n []) 13 ≠ 0 := by
      intro h0
      have : nameToString n = [] := List.eq_nil_of_length_eq_zero (by omega)
      rw [this] at h; simp at h
    have := trimUpTo_last _ _ hne
    rw [nameLoop_getD n _ h13] at this
    exact this h2.symm

/-- C12, second half: every canonical string is the string of its name. -/
theorem C12_canonical_roundtrip (s : Bytes) (h : CanonicalName s) : Name.string (newName s) = s := by
  obtain ⟨h1, h2, h3, h4⟩ := h
  unfold Name.string newName
  have hv := stringToName_toNat s (by omega)
  -- the untrimmed characters are the padded string
  have hchars : nameLoop 13 0 (stringToName s) [] = padName s := by
    rw [nameLoop_eq, hv]
    apply List.ext_getElem?
    intro i
    unfold padName
    by_cases hi : i < 13
    · rw [List.getElem?_map, List.getElem?_range hi]
      simp only [Option.map_some]
      rw [digitOf_nameValue s i hi]
      have hd : strDigit s i = nameDigit (s.getD i 46) := by
        unfold strDigit
        split
        · rfl
        · have hi12 : i = 12 := by omega
          subst hi12
          apply Nat.mod_eq_of_lt
          rw [List.getD_eq_getElem?_getD]
          cases hs : s[12]? with
          | none => decide
          | some c => exact nameDigit_mem16 c (h3 c hs)
      rw [hd]
      by_cases hs : i < s.length
      · rw [List.getElem?_append_left hs, List.getElem?_eq_getElem hs, List.getD_eq_getElem?_getD, List.getElem?_eq_getElem hs]
        simp only [Option.getD_some]
        rw [alphaChar_nameDigit _ (h2 _ (List.getElem_mem hs))]
      · rw [List.getElem?_append_right (by omega), List.getElem?_replicate, if_pos (by omega), List.getD_eq_getElem?_getD,
          List.getElem?_eq_none (by omega)]
        rfl
    · rw [List.getElem?_eq_none (by simp; omega), List.getElem?_eq_none (by simp; omega)]
  unfold nameToString trimRightDots
  rw [hchars]
  have ht : trimUpTo (padName s) 13 = s.length := by
    apply trimUpTo_unique _ _ _ h1
    · intro i hi hi13
      unfold padName
      rw [List.getD_eq_getElem?_getD, List.getElem?_append_right hi, List.getElem?_replicate, if_pos (by omega)]
      rfl
    · intro hne
      unfold padName
      rw [List.getD_eq_getElem?_getD, List.getElem?_append_left (by omega), ← List.getLast?_eq_getElem?]
      cases hs : s.getLast? with
      | none => simp at hs; subst hs; simp at hne
      | some c =>
        intro hc
        simp at hc
        rw [hc] at hs; exact h4 hs
  rw [ht]
  simp [padName]

/-- Non-vacuity: a canonical string of full length. -/
example : CanonicalName (asc "zzzzzzzzzzzzj") := by
  refine ⟨by decide, by decide +kernel, ?_, by decide⟩
  intro c hc
  have : c = 106 := by simpa [asc] using hc.symm
  subst this; decide +kernel

/-- Uniqueness: two names with the same string are equal, two canonical strings with the same name are equal. -/
theorem C12_bijection :
    (∀ a b : UInt64, Name.string a = Name.string b → a = b) ∧
    (∀ s t : Bytes, CanonicalName s → CanonicalName t → newName s = newName t → s = t) := by
  constructor
  · intro a b h
    rw [← C11_name_roundtrip a, ← C11_name_roundtrip b, h]
  · intro s t hs ht h
    rw [← C12_canonical_roundtrip s hs, ← C12_canonical_roundtrip t ht, h]

/-- C13. The numeric order of names is the lexicographic order of their strings filled up with dots. -/
theorem C13_order (a b : UInt64) : a < b ↔ lexLt (padName (Name.string a)) (padName (Name.string b)) = true := by
  unfold Name.string
  have h := lexLt_radix ((List.range 13).map (digitOf a.toNat)) ((List.range 13).map (digitOf b.toNat)) (by simp)
    (radixOk_digits _) (radixOk_digits _)
  rw [radix_digits _ a.toNat_lt, radix_digits _ b.toNat_lt, List.map_map, List.map_map] at h
  rw [padName_nameToString, padName_nameToString, nameLoop_eq, nameLoop_eq, UInt64.lt_iff_toNat_lt]
  simp only [Function.comp_def] at h
  exact h.symm

example : lexLt (padName (asc "eosio")) (padName (asc "eosio.token")) = true ∧ newName (asc "eosio") < newName (asc "eosio.token") := by
  decide +kernel

/-- C14. NewName is total and computes the positional value: any byte outside the alphabet counts as '.', bytes after the 13th are ignored,
the 13th keeps four bits. (Strings below 4 GiB, see `C14_violated_4GiB`.) -/
theorem C14_newName_value (s : Bytes) (hs : s.length < 2 ^ 32) : (newName s).toNat = nameValue s :=
  stringToName_toNat s hs

/-- C14. Only the first 13 bytes matter. -/
theorem C14_newName_prefix (s t : Bytes) (hs : s.length < 2 ^ 32) (ht : t.length < 2 ^ 32) (h : s.take 13 = t.take 13) :
    newName s = newName t := by
  apply UInt64.toNat_inj.mp
  rw [C14_newName_value s hs, C14_newName_value t ht]
  unfold nameValue
  apply congrArg List.sum
  apply List.map_congr_left
  intro i hi
  simp at hi
  have : s.getD i 46 = t.getD i 46 := by
    have h2 := congrArg (fun l => l[i]?) h
    simp only [List.getElem?_take, hi, if_true] at h2
    simp [List.getD_eq_getElem?_getD, h2]
  rw [this]

example : newName (asc "eosio.token") = newName (asc "eosio!token") := by decide +kernel

/-- For strings of 2^32 bytes the length wraps (`uint32(len(s))`) and the whole string is ignored, so the claim fails there: a string
of 2^32 letters 'a' and its first 13 bytes have different names. -/
theorem C14_violated_4GiB : ∃ s : Bytes, s.length = 2 ^ 32 ∧ newName s = 0 ∧ newName (s.take 13) ≠ 0 := by
  have h0 : (2 ^ 32 : Nat).toUInt32 = 0 := by rw [← UInt32.toNat_inj]; simp
  have hge : 13 ≤ 2 ^ 32 := by simp
  revert h0 hge
  generalize (2 ^ 32 : Nat) = n
  intro h0 hge
  refine ⟨List.replicate n 97, List.length_replicate, ?_, ?_⟩
  · unfold newName stringToName
    rw [List.length_replicate, h0]
    simp [stringToNameLoop]
  · rw [List.take_replicate, Nat.min_eq_left hge]
    decide +kernel

/-- Binary form of names. -/
theorem C14_name_binary (n old : UInt64) : ∃ bs, (Name.marshal n).Writes bs ∧ bs.length = 8 ∧ leValue bs = n.toNat ∧
    (Name.unmarshal old).Reads bs n := by
  refine ⟨_, writeBytes_writes _, length_leBytes _ _, by rw [leValue_eq_leNat, leNat_leBytes8 _ n.toNat_lt], ?_⟩
  intro fin rest
  simp [Name.unmarshal, readUint64_reads n fin rest]

end Verif
