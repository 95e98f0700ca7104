import Verif.Lemmas.Encoding
/-! # What base64 decodes before an error -/
namespace Verif

theorem dropWhile_takeWhile (p : UInt8 → Bool) (l : Bytes) : (l.takeWhile p).dropWhile p = [] := by
  induction l with
  | nil => rfl
  | cons c t ih => by_cases h : p c = true <;> simp [h, ih]

theorem b64Tail_out (out src : Bytes) : (b64Tail out src).1 = out := by
  unfold b64Tail; split <;> rfl

theorem b64Pad_more (acc : List Nat) (src rest p : Bytes) (h : b64Pad acc src = (p, none)) : (b64Pad acc (src ++ rest)).1 = p := by
  unfold b64Pad at h ⊢
  split at h
  · split at h
    · cases h
    · rename_i c2 src2 hd
      split at h
      · cases h
      · rename_i hc
        have e : (src ++ rest).dropWhile isNL = c2 :: (src2 ++ rest) := by
          rw [List.dropWhile_append, hd]; simp
        simp only [e, hc, if_false, b64Tail_out]
        have := congrArg Prod.fst h
        rwa [b64Tail_out] at this
  · have := congrArg Prod.fst h
    rw [b64Tail_out] at this
    simp only [b64Tail_out]
    exact this
  · cases h

/-- More text adds to what was decoded -/
theorem b64Go_more (rest : Bytes) : ∀ (s : Bytes) (acc : List Nat) (p : Bytes), b64Go acc s = (p, none) → p <+: (b64Go acc (s ++ rest)).1
  | [], acc, p, h => by
    rw [b64Go] at h
    split at h
    · cases h; exact List.nil_prefix
    · cases h
  | c :: s, acc, p, h => by
    rw [b64Go] at h
    rw [List.cons_append, b64Go]
    cases hv : b64Val c with
    | some d =>
      rw [hv] at h
      dsimp only at h ⊢
      by_cases hl : acc.length = 3
      · rw [if_pos hl] at h ⊢
        injection h with h1 h2
        subst h1
        exact (List.prefix_append_right_inj _).2 (b64Go_more rest s [] _ (Prod.ext rfl h2))
      · rw [if_neg hl] at h ⊢
        exact b64Go_more rest s _ p h
    | none =>
      rw [hv] at h
      dsimp only at h ⊢
      by_cases hn : isNL c
      · rw [if_pos hn] at h ⊢
        exact b64Go_more rest s _ p h
      · rw [if_neg hn] at h ⊢
        by_cases hc : c = 61
        · rw [if_neg (by simpa using hc)] at h ⊢
          rw [b64Pad_more acc s rest p h]
          exact List.prefix_rfl
        · rw [if_pos hc] at h
          cases h

theorem b64Pad_part (acc : List Nat) (src : Bytes) : (b64Pad acc src).1 = [] ∨ ∃ q rest, src = q ++ rest ∧ b64Pad acc q = ((b64Pad acc src).1, none) := by
  have hnil (out : Bytes) : b64Tail out [] = (out, none) := rfl
  unfold b64Pad
  split
  · split
    · exact .inl rfl
    · rename_i c2 src2 hd
      split
      · exact .inl rfl
      · rename_i hc
        refine .inr ⟨src.takeWhile isNL ++ [c2], src2, ?_, ?_⟩
        · rw [List.append_assoc, List.singleton_append, ← hd, List.takeWhile_append_dropWhile]
        · have hc2 : isNL c2 = false := by
            have : c2 = 61 := by simpa using hc
            rw [this]; decide
          have e : (src.takeWhile isNL ++ [c2]).dropWhile isNL = [c2] := by
            rw [List.dropWhile_append, dropWhile_takeWhile, List.dropWhile_cons_of_neg (by simp [hc2])]
            simp
          simp only [e, hc, if_false, b64Tail_out, hnil]
  · exact .inr ⟨[], src, rfl, by simp only [b64Tail_out, hnil]⟩
  · exact .inl rfl

/-- What was decoded is the text of a part at the start -/
theorem b64Go_part : ∀ (s : Bytes) (acc : List Nat), (b64Go acc s).1 = [] ∨ ∃ q rest, s = q ++ rest ∧ b64Go acc q = ((b64Go acc s).1, none)
  | [], acc => by rw [b64Go]; split <;> exact .inl rfl
  | c :: s, acc => by
    rw [b64Go]
    have hlift {acc' : List Nat} {f : Bytes → Bytes × Option Err} (hs : f s = b64Go acc' s) (hf : ∀ q, b64Go acc (c :: q) = f q) (hq : ∀ q, f q = b64Go acc' q) :
        (b64Go acc' s).1 = [] ∨ ∃ q rest, c :: s = q ++ rest ∧ b64Go acc q = ((b64Go acc' s).1, none) := by
      rcases b64Go_part s acc' with h | ⟨q, rest, h1, h2⟩
      · exact .inl h
      · exact .inr ⟨c :: q, rest, by rw [h1]; rfl, by rw [hf, hq, h2]⟩
    cases hv : b64Val c with
    | some d =>
      dsimp only
      by_cases hl : acc.length = 3
      · rw [if_pos hl]
        refine .inr ?_
        rcases b64Go_part s [] with h | ⟨q, rest, h1, h2⟩
        · refine ⟨[c], s, rfl, ?_⟩
          rw [b64Go, hv]
          dsimp only
          rw [if_pos hl, h]; rfl
        · refine ⟨c :: q, rest, by rw [h1]; rfl, ?_⟩
          rw [b64Go, hv]
          dsimp only
          rw [if_pos hl, h2]
      · rw [if_neg hl]
        exact hlift (f := b64Go (acc ++ [d])) rfl (fun q => by rw [b64Go, hv]; dsimp only; rw [if_neg hl]) fun _ => rfl
    | none =>
      dsimp only
      by_cases hn : isNL c
      · rw [if_pos hn]
        exact hlift (f := b64Go acc) rfl (fun q => by rw [b64Go, hv]; dsimp only; rw [if_pos hn]) fun _ => rfl
      · rw [if_neg hn]
        by_cases hc : c = 61
        · rw [if_neg (by simpa using hc)]
          rcases b64Pad_part acc s with h | ⟨q, rest, h1, h2⟩
          · exact .inl h
          · refine .inr ⟨c :: q, rest, by rw [h1]; rfl, ?_⟩
            rw [b64Go, hv]
            dsimp only
            rw [if_neg hn, if_neg (by simpa using hc), h2]
        · rw [if_pos hc]
          exact .inl rfl

/-- The longest that any part at the start stands for -/
theorem b64Decode_part (s : Bytes) : (∃ q rest, s = q ++ rest ∧ B64Text false (noNL q) (b64Decode s).1) ∧
    ∀ q rest p, s = q ++ rest → B64Text false (noNL q) p → p <+: (b64Decode s).1 := by
  refine ⟨?_, fun q rest p h1 h2 => ?_⟩
  · rcases b64Go_part s [] with h | ⟨q, rest, h1, h2⟩
    · exact ⟨[], s, rfl, by rw [show (b64Decode s).1 = [] from h]; exact .nil⟩
    · exact ⟨q, rest, h1, (b64Decode_iff _ _).1 h2⟩
  · rw [h1]
    exact b64Go_more rest q [] p ((b64Decode_iff _ _).2 h2)

end Verif
