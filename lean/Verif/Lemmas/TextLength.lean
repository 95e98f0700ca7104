import Verif.Props.Keys
import Verif.Props.Symbol
import Verif.Props.Name
import Verif.Props.Numbers
import Verif.Props.Blob
import Verif.Props.Time
/-! # Lengths of texts -/
namespace Verif

/-! ### Base58 -/

theorem canonical_length_le (B k : Nat) (hB : 1 < B) (ds : List Nat) (h : Canonical B ds) (hv : posVal B ds < B ^ k) : ds.length ≤ k := by
  cases ds with
  | nil => simp
  | cons d t =>
    have g := posVal_ge B d t (fun e => h.2 t (by rw [e]))
    have : t.length < k := (Nat.pow_lt_pow_iff_right hB).1 (Nat.lt_of_le_of_lt g hv)
    rw [List.length_cons]; omega

theorem canonical_lt_length (B k : Nat) (hB : 1 < B) (ds : List Nat) (h : Canonical B ds) (hv : B ^ k ≤ posVal B ds) : k < ds.length :=
  (Nat.pow_lt_pow_iff_right hB).1 (Nat.lt_of_le_of_lt hv (posVal_lt B ds h.1))

/-- 41 bytes fit in 56 digits -/
theorem pow_fit (n k : Nat) (h : 56 * n ≤ 41 * k) : 256 ^ n ≤ 58 ^ k := by
  have h1 : (256 ^ n) ^ 41 ≤ (58 ^ k) ^ 41 := by
    rw [← Nat.pow_mul, ← Nat.pow_mul, Nat.mul_comm n 41, Nat.pow_mul]
    calc (256 ^ 41) ^ n ≤ (58 ^ 56) ^ n := Nat.pow_le_pow_left (by decide) n
      _ = 58 ^ (56 * n) := (Nat.pow_mul ..).symm
      _ ≤ 58 ^ (k * 41) := Nat.pow_le_pow_right (by decide) (by omega)
  exact (Nat.pow_le_pow_iff_left (by decide)).1 h1

theorem base58_length {s b : Bytes} (h : Base58Text s b) : b.length ≤ s.length ∧ 41 * s.length < 56 * b.length + 41 := by
  obtain ⟨z, ds, bs, rfl, rfl, hd, hb, hv⟩ := h
  have lb : (bs.map UInt8.toNat).length = bs.length := by simp
  have up := canonical_length_le 58 ((56 * bs.length + 40) / 41) (by decide) ds hd (by
    have h1 := posVal_lt 256 _ hb.1
    rw [lb, ← hv] at h1
    exact Nat.lt_of_lt_of_le h1 (pow_fit _ _ (by omega)))
  have low : bs.length ≤ ds.length := by
    have := canonical_length_le 256 ds.length (by decide) _ hb (by
      rw [← hv]
      exact Nat.lt_of_lt_of_le (posVal_lt 58 ds hd.1) (Nat.pow_le_pow_left (by decide) _))
    rwa [lb] at this
  simp only [List.length_append, List.length_replicate, List.length_map]
  omega

/-- with a first byte that is not zero, between two powers -/
theorem base58_exact {s : Bytes} {c : UInt8} {t : Bytes} (h : Base58Text s (c :: t)) (k lo hi : Nat) (hlo : lo ≤ c.toNat) (h0 : 0 < lo)
    (hhi : c.toNat < hi) (p1 : 58 ^ k ≤ lo * 256 ^ t.length) (p2 : hi * 256 ^ t.length ≤ 58 ^ (k + 1)) : s.length = k + 1 := by
  obtain ⟨z, ds, bs, rfl, e, hd, hb, hv⟩ := h
  have hz : z = 0 := by
    cases z with
    | zero => rfl
    | succ z =>
      simp [List.replicate_succ] at e
      rw [e.1] at hlo
      have : (0 : UInt8).toNat = 0 := rfl
      omega
  subst hz
  simp only [List.replicate_zero, List.nil_append] at e
  subst e
  rw [List.map_cons, posVal_cons] at hv
  have hl : (List.map UInt8.toNat t).length = t.length := by simp
  have hlt := posVal_lt 256 (List.map UInt8.toNat t) (map_toNat_lt _)
  rw [hl] at hv hlt
  have m1 : lo * 256 ^ t.length ≤ c.toNat * 256 ^ t.length := Nat.mul_le_mul_right _ hlo
  have m2 : (c.toNat + 1) * 256 ^ t.length ≤ hi * 256 ^ t.length := Nat.mul_le_mul_right _ (by omega)
  rw [Nat.succ_mul] at m2
  simp only [List.replicate_zero, List.nil_append, List.length_map]
  exact digits_length 58 k (by decide) ds hd (by omega) (by omega)

theorem digest_take_length (x : Bytes) : ((RipemdSpec.digest x).take 4).length = 4 := by
  simp [digest_length]

theorem checked_length {name data body : Bytes} (h : CheckedText name data body) :
    data.length + 4 ≤ body.length ∧ 41 * body.length < 56 * (data.length + 4) + 41 := by
  have := base58_length h
  rw [List.length_append, digest_take_length] at this
  exact this

theorem keyName_length {t : UInt8} {n : Bytes} (h : KeyName t n) : n.length = 2 := by
  cases h <;> rfl

/-! ### Symbols and assets -/

theorem symbolNameLoop_length (f : Nat) (v : UInt64) : (symbolNameLoop f v).length ≤ 2 * f := by
  induction f generalizing v with
  | zero => simp [symbolNameLoop]
  | succ f ih =>
    simp only [symbolNameLoop]
    split
    · have := ih (v >>> 8)
      have h2 : (runeOfByte v.toUInt8).length ≤ 2 := by unfold runeOfByte; split <;> simp
      rw [List.length_append]; omega
    · simp

end Verif
