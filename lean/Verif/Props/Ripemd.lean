import Verif.Lemmas.Ripemd
/-! # RIPEMD-160: C58, C59 -/
namespace Verif

/-- The digest object after a sequence of Write calls. -/
def writeAll (d : Digest) (pieces : List Bytes) : Digest := pieces.foldl Digest.write d

/-- A program using the hash: writes interleaved with calls of Sum and Reset; the results of the Sum calls. -/
inductive HashOp where
  | write (p : Bytes)
  | sum (inp : Bytes)
  | reset

def runHash : Digest → List HashOp → List (Pan Bytes)
  | _, [] => []
  | d, .write p :: ops => runHash (d.write p) ops
  | d, .sum inp :: ops => d.sum inp :: runHash d ops
  | d, .reset :: ops => runHash d.reset ops

/-- What such a program must return: each Sum returns its argument followed by the digest of everything written since the last Reset. -/
def hashResults : Bytes → List HashOp → List (Pan Bytes)
  | _, [] => []
  | m, .write p :: ops => hashResults (m ++ p) ops
  | m, .sum inp :: ops => .val (inp ++ RipemdSpec.digest m) :: hashResults m ops
  | _, .reset :: ops => hashResults [] ops

theorem reset_holds (d : Digest) (m : Bytes) (h : d.Holds m) : d.reset.Holds [] := ⟨rfl, rfl, h.size, rfl, rfl⟩

theorem writeAll_holds (pieces : List Bytes) : ∀ (d : Digest) (m : Bytes), d.Holds m → (writeAll d pieces).Holds (m ++ pieces.flatten) := by
  induction pieces with
  | nil => intro d m h; simpa [writeAll] using h
  | cons p ps ih =>
    intro d m h
    have := ih (d.write p) (m ++ p) (write_holds d m p h)
    simpa [writeAll, List.append_assoc] using this

/-- C58: the digest depends only on the concatenation of the pieces written; the panic is unreachable. -/
theorem C58_chunking (pieces : List Bytes) :
    (writeAll Digest.new pieces).sum [] = (Digest.new.write pieces.flatten).sum [] ∧ ∃ d, (writeAll Digest.new pieces).sum [] = .val d := by
  have h1 := sum_spec _ _ [] (writeAll_holds pieces _ _ new_holds)
  have h2 := sum_spec _ _ [] (write_holds _ _ pieces.flatten new_holds)
  exact ⟨by rw [h1, h2], _, h1⟩

/-- C58/C59: every program of writes, sums and resets, in any interleaving. -/
theorem C58_any_program (ops : List HashOp) : runHash Digest.new ops = hashResults [] ops := by
  have : ∀ d m, d.Holds m → runHash d ops = hashResults m ops := by
    induction ops with
    | nil => intro d m _; rfl
    | cons o os ih =>
      intro d m h
      cases o with
      | write p => exact ih _ _ (write_holds d m p h)
      | sum inp => simp only [runHash, hashResults, sum_spec d m inp h, ih d m h]
      | reset => exact ih _ _ (reset_holds d m h)
  exact this _ _ new_holds

/-- C59: the digest of a message of any length is RIPEMD-160 as published (with the bit length taken modulo 2^64). -/
theorem C59_published (m : Bytes) : checksum160Digest m = .val (RipemdSpec.digest m) := by
  unfold checksum160Digest
  rw [sum_spec _ _ [] (write_holds _ _ m new_holds)]
  have : (RipemdSpec.digest m).length = 20 := by simp [RipemdSpec.digest, RipemdSpec.bytesOf]
  simp only [List.nil_append]
  rw [List.take_of_length_le (by omega)]

/-- The constants of the specification are those of the paper: integer parts of 2^30 times square and cube roots of 2, 3, 5, 7. -/
theorem C59_constants :
    ([RipemdSpec.K 16, RipemdSpec.K 32, RipemdSpec.K 48, RipemdSpec.K 64].zip [2, 3, 5, 7]).all (fun (k, n) =>
      k.toNat ^ 2 ≤ n * 2 ^ 60 ∧ n * 2 ^ 60 < (k.toNat + 1) ^ 2) ∧
    ([RipemdSpec.K' 0, RipemdSpec.K' 16, RipemdSpec.K' 32, RipemdSpec.K' 48].zip [2, 3, 5, 7]).all (fun (k, n) =>
      k.toNat ^ 3 ≤ n * 2 ^ 90 ∧ n * 2 ^ 90 < (k.toNat + 1) ^ 3) := by decide +kernel

/-- Published test vector: RIPEMD-160("abc"). -/
example : RipemdSpec.digest (asc "abc") = [0x8e, 0xb2, 0x08, 0xf7, 0xe0, 0x5d, 0x98, 0x7a, 0x9b, 0x04, 0x4a, 0x8e, 0x98, 0xc6, 0xb0, 0x87, 0xf1, 0x5a, 0x0b, 0xfc] := by
  decide +kernel
/-- Published test vector: the empty message. -/
example : RipemdSpec.digest [] = [0x9c, 0x11, 0x85, 0xa5, 0xc5, 0xe9, 0xfc, 0x54, 0x61, 0x28, 0x08, 0x97, 0x7e, 0xe8, 0xf5, 0x48, 0xb2, 0x25, 0x8d, 0x31] := by
  decide +kernel
/-- A program with interleaved sums. -/
example : runHash Digest.new [.write (asc "a"), .sum [1], .write (asc "bc"), .sum [], .reset, .sum []] =
    [.val ([1] ++ RipemdSpec.digest (asc "a")), .val (RipemdSpec.digest (asc "abc")), .val (RipemdSpec.digest [])] := by
  rw [C58_any_program, show asc "abc" = asc "a" ++ asc "bc" by decide]
  simp only [hashResults, List.nil_append]

end Verif
