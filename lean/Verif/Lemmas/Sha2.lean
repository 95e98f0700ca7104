import Verif.Spec.Sha2
import Verif.Model.Sha2
/-! # SHA-2: the model computes what the standard says -/
namespace Verif
open Sha2Spec

/-! ## Constants -/

theorem nth_filter (p : Nat → Prop) [DecidablePred p] (N : Nat) : ∀ i (h : i < ((List.range N).filter p).length), Nat.nth p i = ((List.range N).filter p)[i] := by
  induction N with
  | zero => intro i h; simp at h
  | succ N ih =>
    intro i h
    have e : (List.range (N + 1)).filter p = (List.range N).filter p ++ if p N then [N] else [] := by
      rw [List.range_succ, List.filter_append]
      by_cases hN : p N <;> simp [hN]
    by_cases hi : i < ((List.range N).filter p).length
    · rw [ih i hi]
      simp only [e]
      rw [List.getElem_append_left hi]
    · by_cases hN : p N
      · simp only [e, hN, if_true] at h ⊢
        rw [List.length_append, List.length_singleton] at h
        have hi' : i = ((List.range N).filter p).length := by omega
        rw [List.getElem_append_right (by omega)]
        simp only [List.getElem_singleton]
        have hc : Nat.count p N = i := by rw [hi', Nat.count, List.countP_eq_length_filter]
        rw [← hc, Nat.nth_count hN]
      · simp only [e, hN, if_false, List.append_nil] at h
        exact absurd h hi

/-- Trial division by the numbers up to 20 -/
def smallPrime (n : Nat) : Bool := decide (2 ≤ n) && (List.range 21).all fun d => decide (d < 2) || decide (n % d ≠ 0) || n == d

theorem smallPrime_iff (n : Nat) (h : n < 441) : smallPrime n = true ↔ n.Prime := by
  unfold smallPrime
  simp only [Bool.and_eq_true, decide_eq_true_eq, List.all_eq_true, List.mem_range, Bool.or_eq_true, beq_iff_eq]
  constructor
  · rintro ⟨h2, hd⟩
    by_contra hp
    have h1 := Nat.minFac_sq_le_self (by omega) hp
    have h3 := (Nat.minFac_prime (n := n) (by omega)).two_le
    have h4 : n.minFac < 21 := by
      by_contra hc
      have : 21 * 21 ≤ n.minFac ^ 2 := by rw [Nat.pow_two]; exact Nat.mul_le_mul (by omega) (by omega)
      omega
    have := Nat.mod_eq_zero_of_dvd (Nat.minFac_dvd n)
    rcases hd _ h4 with (h | h) | h
    · omega
    · exact h this
    · exact hp (h ▸ Nat.minFac_prime (n := n) (by omega))
  · intro hp
    refine ⟨hp.two_le, fun d _ => ?_⟩
    by_cases h1 : d < 2
    · exact .inl (.inl h1)
    · by_cases h2 : n % d = 0
      · refine .inr ?_
        rcases (Nat.dvd_prime hp).1 (Nat.dvd_of_mod_eq_zero h2) with h | h
        · omega
        · exact h.symm
      · exact .inl (.inr h2)

def primes80 : List Nat := (List.range 410).filter smallPrime

theorem prime_eq (t : Nat) (h : t < 80) : prime t = primes80.getD t 0 := by
  have hl : primes80.length = 80 := by decide +kernel
  have e : (List.range 410).filter (fun n => decide n.Prime) = primes80 := by
    unfold primes80
    refine List.filter_congr fun n hn => ?_
    rw [Bool.eq_iff_iff, smallPrime_iff n (by have := List.mem_range.1 hn; omega), decide_eq_true_eq]
  unfold prime
  have := nth_filter Nat.Prime 410 t (by rw [e, hl]; exact h)
  rw [this, List.getD_eq_getElem?_getD, List.getElem?_eq_getElem (by rw [hl]; exact h)]
  simp only [e, Option.getD_some]

theorem rootBits_eq {k w n x : Nat} (hk : k ≠ 0) (h1 : x ^ k ≤ n * 2 ^ (w * k)) (h2 : n * 2 ^ (w * k) < (x + 1) ^ k) : rootBits k w n = BitVec.ofNat w x := by
  unfold rootBits
  congr 1
  rw [Nat.findGreatest_eq_iff]
  refine ⟨Nat.le_trans (Nat.le_self_pow hk x) h1, fun _ => h1, fun y hy _ h => ?_⟩
  have := Nat.pow_le_pow_left (show x + 1 ≤ y from hy) k
  omega

/-- c is the integer part of the root, v the next w bits. -/
def rootOk (k w n : Nat) (v : BitVec w) : Bool := (List.range 21).any fun c => decide ((c * 2 ^ w + v.toNat) ^ k ≤ n * 2 ^ (w * k)) && decide (n * 2 ^ (w * k) < (c * 2 ^ w + v.toNat + 1) ^ k)

theorem rootOk_eq {k w n : Nat} {v : BitVec w} (hk : k ≠ 0) (h : rootOk k w n v = true) : rootBits k w n = v := by
  unfold rootOk at h
  rw [List.any_eq_true] at h
  obtain ⟨c, _, h⟩ := h
  rw [Bool.and_eq_true, decide_eq_true_eq, decide_eq_true_eq] at h
  rw [rootBits_eq hk h.1 h.2]
  apply BitVec.eq_of_toNat_eq
  rw [BitVec.toNat_ofNat, Nat.mul_comm, Nat.mul_add_mod, Nat.mod_eq_of_lt v.isLt]

theorem K256 (t : Nat) (h : t < 64) : sha256Alg.k.getD t 0 = K 32 t := by
  unfold K
  rw [prime_eq t (by omega)]
  symm
  apply rootOk_eq (by decide)
  have : ∀ t < 64, rootOk 3 32 (primes80.getD t 0) (sha256Alg.k.getD t 0) = true := by decide +kernel
  exact this t h
theorem K512 (t : Nat) (h : t < 80) : sha512Alg.k.getD t 0 = K 64 t := by
  unfold K
  rw [prime_eq t h]
  symm
  apply rootOk_eq (by decide)
  have : ∀ t < 80, rootOk 3 64 (primes80.getD t 0) (sha512Alg.k.getD t 0) = true := by decide +kernel
  exact this t h

/-- The state as a function of the index -/
def S8.vars {w : Nat} (s : S8 w) : Vars w := fun | 0 => s.a | 1 => s.b | 2 => s.c | 3 => s.d | 4 => s.e | 5 => s.f | 6 => s.g | 7 => s.h

theorem init256 : sha256Alg.init.vars = fun i => H0 32 i.val := by
  funext i
  unfold H0
  rw [prime_eq _ (by omega)]
  symm
  apply rootOk_eq (by decide)
  have : ∀ i : Fin 8, rootOk 2 32 (primes80.getD i.val 0) (sha256Alg.init.vars i) = true := by decide +kernel
  exact this i
theorem init512 : sha512Alg.init.vars = fun i => H0 64 i.val := by
  funext i
  unfold H0
  rw [prime_eq _ (by omega)]
  symm
  apply rootOk_eq (by decide)
  have : ∀ i : Fin 8, rootOk 2 64 (primes80.getD i.val 0) (sha512Alg.init.vars i) = true := by decide +kernel
  exact this i

/-! ## Numbers -/

theorem number_eq (bs : Bytes) : number bs = beNat bs := by
  induction bs using List.reverseRecOn with
  | nil => rfl
  | append_singleton bs b ih =>
    unfold number at ih ⊢
    rw [List.foldl_append, ih]
    simp only [List.foldl, beNat, List.reverse_append, List.reverse_cons, List.reverse_nil, List.nil_append, List.cons_append, leNat]
    omega

theorem bytes_eq (n : Nat) : ∀ v, Sha2Spec.bytes n v = beBytes n v := by
  induction n with
  | zero => exact fun v => rfl
  | succ n ih =>
    intro v
    have e : beBytes (n + 1) v = beBytes n (v / 256) ++ [(v % 256).toUInt8] := by simp [beBytes, leBytes]
    rw [e, ← ih]
    unfold Sha2Spec.bytes
    rw [List.range_succ, List.map_append]
    congr 1
    · refine List.map_congr_left fun i hi => ?_
      have := List.mem_range.1 hi
      rw [Nat.div_div_eq_div_mul, ← Nat.pow_succ', show n + 1 - 1 - i = n - 1 - i + 1 by omega]
    · simp only [List.map_cons, List.map_nil, Nat.add_sub_cancel, Nat.sub_self, Nat.pow_zero, Nat.div_one]
      exact congrArg (· :: []) (UInt8.toNat_inj.1 (by simp))

theorem beBytes_small (a b : Nat) : ∀ v, v < 256 ^ b → beBytes (a + b) v = List.replicate a 0 ++ beBytes b v := by
  induction b with
  | zero =>
    intro v hv
    obtain rfl : v = 0 := by omega
    induction a with
    | zero => rfl
    | succ a ih =>
      have e : beBytes (a + 1) 0 = beBytes a 0 ++ [0] := by simp [beBytes, leBytes]
      rw [Nat.add_zero] at ih ⊢
      rw [e, ih]
      simp [beBytes, leBytes, List.replicate_succ']
  | succ b ih =>
    intro v hv
    have e : ∀ n, beBytes (n + 1) v = beBytes n (v / 256) ++ [(v % 256).toUInt8] := fun n => by simp [beBytes, leBytes]
    rw [← Nat.add_assoc, e, e, ih (v / 256) (by rw [Nat.pow_succ] at hv; omega), List.append_assoc]

/-! ## Compression -/

variable {w : Nat}

/-- The parameters of the model are those of the standard. -/
structure Sha2Alg.Fits (A : Sha2Alg w) (N : Numbers) (rounds : Nat) : Prop where
  width : w = 32 ∨ w = 64
  len : A.k.length = rounds
  long : 16 ≤ rounds
  k : ∀ t < rounds, A.k.getD t 0 = K w t
  init : A.init.vars = fun i => H0 w i.val
  t1 : A.t1 = N.sigma1
  t2 : A.t2 = N.sigma0
  e : A.e = N.Sigma1
  a : A.a = N.Sigma0

theorem fits256 : sha256Alg.Fits numbers256 64 := ⟨.inl rfl, rfl, by decide, K256, init256, rfl, rfl, rfl, rfl⟩
theorem fits512 : sha512Alg.Fits numbers512 80 := ⟨.inr rfl, rfl, by decide, K512, init512, rfl, rfl, rfl, rfl⟩

theorem getD_map_range (f : Nat → BitVec w) {n i : Nat} (h : i < n) : ((List.range n).map f).getD i 0 = f i := by
  rw [List.getD_eq_getElem?_getD, List.getElem?_map, List.getElem?_range h]
  rfl

theorem W_low (N : Numbers) (M : Nat → BitVec w) {t : Nat} (h : t < 16) : W N M t = M t := by rw [W, if_pos h]
theorem W_high (N : Numbers) (M : Nat → BitVec w) (n : Nat) : W N M (16 + n) = sigma N.sigma1 (W N M (16 + n - 2)) + W N M (16 + n - 7) + sigma N.sigma0 (W N M (16 + n - 15)) + W N M (16 + n - 16) := by
  rw [W, if_neg (by omega)]

theorem schedule_fold {A : Sha2Alg w} {N : Numbers} {rounds : Nat} (hA : A.Fits N rounds) (M : Nat → BitVec w) (n : Nat) :
    (List.range' 16 n).foldl A.extend ((List.range 16).map M) = (List.range (16 + n)).map (W N M) := by
  induction n with
  | zero =>
    show (List.range 16).map M = _
    exact List.map_congr_left fun i hi => (W_low N M (List.mem_range.1 hi)).symm
  | succ n ih =>
    rw [List.range'_1_concat, List.foldl_append, ih, show 16 + (n + 1) = 16 + n + 1 by omega, List.range_succ, List.map_append]
    simp only [List.foldl, Sha2Alg.extend]
    rw [getD_map_range _ (show 16 + n - 2 < 16 + n by omega), getD_map_range _ (show 16 + n - 15 < 16 + n by omega), getD_map_range _ (show 16 + n - 7 < 16 + n by omega),
      getD_map_range _ (show 16 + n - 16 < 16 + n by omega), List.map_singleton, W_high, hA.t1, hA.t2]
    rfl

theorem schedule_eq {A : Sha2Alg w} {N : Numbers} {rounds : Nat} (hA : A.Fits N rounds) (p : Bytes) :
    A.schedule p = (List.range rounds).map (W N fun j => BitVec.ofNat w (number ((p.drop (w / 8 * j)).take (w / 8)))) := by
  unfold Sha2Alg.schedule
  have := hA.long
  rw [hA.len]
  simp only [← number_eq]
  rw [schedule_fold hA, show 16 + (rounds - 16) = rounds by omega]

theorem round_eq {A : Sha2Alg w} {N : Numbers} {rounds : Nat} (hA : A.Fits N rounds) (k x : BitVec w) (s : S8 w) : (A.round k x s).vars = step N k x s.vars := by
  funext i
  unfold Sha2Alg.round
  rw [hA.e, hA.a]
  rcases i with ⟨i, hi⟩
  interval_cases i <;> rfl

theorem rounds_eq {A : Sha2Alg w} {N : Numbers} {rounds : Nat} (hA : A.Fits N rounds) (M : Nat → BitVec w) (s : S8 w) (n : Nat) (hn : n ≤ rounds) :
    ((List.range n).foldl (fun t i => A.round (A.k.getD i 0) (((List.range rounds).map (W N M)).getD i 0) t) s).vars = steps N M s.vars n := by
  induction n with
  | zero => rfl
  | succ n ih =>
    rw [List.range_succ, List.foldl_append]
    simp only [List.foldl, steps]
    rw [round_eq hA, ih (by omega), hA.k n (by omega), getD_map_range _ (by omega)]

theorem chunk_eq {A : Sha2Alg w} {N : Numbers} {rounds : Nat} (hA : A.Fits N rounds) (s : S8 w) (p : Bytes) :
    (A.chunk s p).vars = compress N rounds s.vars fun j => BitVec.ofNat w (number ((p.drop (w / 8 * j)).take (w / 8))) := by
  have h := rounds_eq hA (fun j => BitVec.ofNat w (number ((p.drop (w / 8 * j)).take (w / 8)))) s rounds (Nat.le_refl _)
  unfold Sha2Alg.chunk compress
  rw [schedule_eq hA, hA.len, ← h]
  funext i
  rcases i with ⟨i, hi⟩
  interval_cases i <;> exact BitVec.add_comm ..

theorem block_eq {A : Sha2Alg w} {N : Numbers} {rounds : Nat} (hA : A.Fits N rounds) (p : Bytes) : ∀ (k i fuel : Nat) (s : S8 w), i + k = p.length / (2 * w) → k ≤ fuel → s.vars = hash N rounds p i →
    (A.block fuel s (p.drop (2 * w * i))).vars = hash N rounds p (p.length / (2 * w)) := by
  have hw : 0 < 2 * w := by rcases hA.width with h | h <;> omega
  intro k
  induction k with
  | zero =>
    intro i fuel s hi hf hs
    rw [← hi, Nat.add_zero, ← hs]
    have hlt : ¬ (p.drop (2 * w * i)).length ≥ 2 * w := by
      rw [List.length_drop]
      have := Nat.lt_mul_div_succ p.length hw
      rw [← hi, Nat.add_zero, Nat.mul_succ] at this
      omega
    cases fuel with
    | zero => rfl
    | succ fuel => rw [Sha2Alg.block, if_neg hlt]
  | succ k ih =>
    intro i fuel s hi hf hs
    obtain ⟨fuel, rfl⟩ : ∃ f, fuel = f + 1 := ⟨fuel - 1, by omega⟩
    have hge : (p.drop (2 * w * i)).length ≥ 2 * w := by
      rw [List.length_drop]
      have h1 := Nat.mul_div_le p.length (2 * w)
      rw [← hi] at h1
      have h2 : 2 * w * (i + 1) ≤ 2 * w * (i + (k + 1)) := Nat.mul_le_mul_left _ (by omega)
      rw [Nat.mul_succ] at h2
      omega
    rw [Sha2Alg.block, if_pos hge, List.drop_drop, ← Nat.mul_succ]
    refine ih (i + 1) fuel _ (by omega) (by omega) ?_
    rw [chunk_eq hA, hs]
    simp only [List.drop_drop]
    rfl

theorem padding_eq {A : Sha2Alg w} {N : Numbers} {rounds : Nat} (hA : A.Fits N rounds) (m : Bytes) (hm : m.length < 2 ^ 61) : Padded w m (m ++ A.padding m.length.toUInt64) := by
  have h1 : m.length.toUInt64.toNat = m.length := by simp [Nat.toUInt64, UInt64.toNat_ofNat']; omega
  have h2 : (m.length.toUInt64 <<< 3).toNat = 8 * m.length := by
    rw [UInt64.toNat_shiftLeft, h1]
    simp [Nat.shiftLeft_eq]
    omega
  unfold Sha2Alg.padding
  rw [h1, h2]
  have h3 : ∀ a, List.replicate a (0 : UInt8) ++ beBytes 8 (8 * m.length) = Sha2Spec.bytes (a + 8) (8 * m.length) := fun a => by rw [bytes_eq, beBytes_small _ _ _ (by omega)]
  rcases hA.width with rfl | rfl
  · refine ⟨(if m.length % 64 < 56 then 56 - m.length % 64 else 64 + 56 - m.length % 64) - 1, ?_, ?_, ?_⟩
    · rw [← h3 0]
      simp
    · simp only [List.length_append, List.length_cons, List.length_replicate, length_beBytes]
      split <;> omega
    · split <;> omega
  · refine ⟨(if m.length % 128 < 112 then 112 - m.length % 128 else 128 + 112 - m.length % 128) - 1, ?_, ?_, ?_⟩
    · rw [← h3 8]
      simp
    · simp only [List.length_append, List.length_cons, List.length_replicate, length_beBytes]
      split <;> omega
    · split <;> omega

theorem sha2_digest {A : Sha2Alg w} {N : Numbers} {rounds : Nat} (hA : A.Fits N rounds) (m : Bytes) (hm : m.length < 2 ^ 61) : IsDigest w N rounds m (A.sum m) := by
  refine ⟨_, padding_eq hA m hm, ?_⟩
  have := block_eq hA (m ++ A.padding m.length.toUInt64) _ 0 (m ++ A.padding m.length.toUInt64).length A.init (Nat.zero_add _) (Nat.div_le_self ..) hA.init
  rw [Nat.mul_zero, List.drop_zero] at this
  unfold Sha2Alg.sum
  simp only [← this, bytes_eq]
  rfl

theorem digest_unique {N : Numbers} {rounds : Nat} {m d d' : Bytes} (hw : 0 < w) (h : IsDigest w N rounds m d) (h' : IsDigest w N rounds m d') : d = d' := by
  obtain ⟨p, ⟨z, rfl, h1, h2⟩, rfl⟩ := h
  obtain ⟨p, ⟨z', rfl, h1', h2'⟩, rfl⟩ := h'
  have : z = z' := by
    simp only [List.length_append, List.length_replicate] at h1 h1'
    rcases Nat.le_total z z' with h | h
    · have := Nat.dvd_sub (Nat.dvd_of_mod_eq_zero h1') (Nat.dvd_of_mod_eq_zero h1)
      have := Nat.eq_zero_of_dvd_of_lt this (by omega)
      omega
    · have := Nat.dvd_sub (Nat.dvd_of_mod_eq_zero h1) (Nat.dvd_of_mod_eq_zero h1')
      have := Nat.eq_zero_of_dvd_of_lt this (by omega)
      omega
  rw [this]

end Verif
