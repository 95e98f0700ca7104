import Verif.Lemmas.JsonMembers
import Verif.Model.JsonChain
/-! # Documents json.Marshal makes of the structs; how objects and arrays are read -/
namespace Verif

/-- Bytes written to a JSON string as they are -/
def PlainByte (c : UInt8) : Bool := 32 ≤ c.toNat && c.toNat < 128 && c != 34 && c != 92 && c != 60 && c != 62 && c != 38

theorem escByte_plain (c : UInt8) (h : PlainByte c = true) : escByte c = [c] ∧ c < 0x80 := by
  simp only [PlainByte, Bool.and_eq_true, decide_eq_true_eq, bne_iff_ne, ne_eq] at h
  obtain ⟨⟨⟨⟨⟨⟨h1, h2⟩, h3⟩, h4⟩, h5⟩, h6⟩, h7⟩ := h
  have e : ∀ n : UInt8, n.toNat < 32 → c ≠ n := by rintro n hn rfl; omega
  refine ⟨?_, by rw [u8_lt_iff]; exact h2⟩
  unfold escByte
  rw [if_neg (by simp [h3, h4]), if_neg (e 10 (by decide)), if_neg (e 13 (by decide)), if_neg (e 9 (by decide)), if_neg (fun h => e 8 (by decide) h.1),
    if_neg (fun h => e 12 (by decide) h.1), if_neg]
  rintro (h | h | h | h)
  · rw [u8_lt_iff] at h; have : (32 : UInt8).toNat = 32 := rfl; omega
  · exact h5 h
  · exact h6 h
  · exact h7 h
theorem escAux_plain : (f : Nat) → (s : Bytes) → s.length ≤ f → (∀ c ∈ s, PlainByte c = true) → escAux f s = s
  | f, [], _, _ => by cases f <;> rfl
  | 0, _ :: _, h, _ => by simp at h
  | f + 1, c :: s, h, hp => by
    have hc := escByte_plain c (hp c (by simp))
    rw [escAux, if_pos hc.2, hc.1, escAux_plain f s (by simpa using h) fun x hx => hp x (by simp [hx])]; rfl
theorem escape_plain {s : Bytes} (h : ∀ c ∈ s, PlainByte c = true) : escapeStr s = s := escAux_plain _ s (Nat.le_refl _) h

theorem plain_name (v : UInt64) : ∀ c ∈ Name.string v, PlainByte c = true := by
  intro c hc
  obtain ⟨a, ha, e⟩ := (C12_string_canonical v).2.1 c hc
  have e' : c = UInt8.ofNat a.toNat := by rw [← e]; simp
  rw [e']
  clear e' e hc c
  revert a; decide +kernel
theorem plain_get {l : Bytes} {n : Nat} {c : UInt8} (hl : ∀ c ∈ l, PlainByte c = true) (h : l[n]? = some c) : PlainByte c = true := hl c (List.mem_of_getElem? h)
theorem plain_hex {s b : Bytes} (h : HexText s b) : ∀ c ∈ s, PlainByte c = true := by
  have hd : ∀ c v, IsHexDigit c v → PlainByte c = true := by
    rintro c v (h | h)
    · exact plain_get (by decide) h
    · exact plain_get (by decide) h
  induction h with
  | nil => intro c hc; cases hc
  | cons h1 h2 _ _ ih =>
    intro c hc
    rcases List.mem_cons.mp hc with rfl | hc
    · exact hd _ _ h1
    · rcases List.mem_cons.mp hc with rfl | hc
      · exact hd _ _ h2
      · exact ih c hc
theorem plain_digits {s : Bytes} (h : AllDigits s) : ∀ c ∈ s, PlainByte c = true := by
  intro c hc
  have h := h c hc
  have e : ∀ n : UInt8, n.toNat < 48 ∨ 57 < n.toNat → (c != n) = true := by
    intro n hn; rw [bne_iff_ne]; rintro rfl; omega
  simp [PlainByte, e 34 (by decide), e 92 (by decide), e 60 (by decide), e 62 (by decide), e 38 (by decide)]; omega
theorem plain_utc {m : Bool} {ms : Int} {s : Bytes} (h : UtcText m ms s) : ∀ c ∈ s, PlainByte c = true := by
  obtain ⟨d, stamp, frac, _, ⟨Y, M, D, h, m', sec, rfl, _, h1, h2, h3, h4, h5, h6⟩, hs⟩ := h
  have app : ∀ a b : Bytes, (∀ c ∈ a, PlainByte c = true) → (∀ c ∈ b, PlainByte c = true) → ∀ c ∈ a ++ b, PlainByte c = true :=
    fun a b ha hb c h => (List.mem_append.mp h).elim (ha c) (hb c)
  have hst : ∀ c ∈ Y ++ [45] ++ M ++ [45] ++ D ++ [84] ++ h ++ [58] ++ m' ++ [58] ++ sec, PlainByte c = true :=
    app _ _ (app _ _ (app _ _ (app _ _ (app _ _ (app _ _ (app _ _ (app _ _ (app _ _ (app _ _ (plain_digits h1.2.1) (by decide)) (plain_digits h2.2.1)) (by decide))
      (plain_digits h3.2.1)) (by decide)) (plain_digits h4.2.1)) (by decide)) (plain_digits h5.2.1)) (by decide)) (plain_digits h6.2.1)
  cases m with
  | false => rw [if_neg (by decide)] at hs; rw [hs]; exact hst
  | true => rw [if_pos rfl] at hs; rw [hs.1]; exact app _ _ hst (app [46] _ (by decide) (plain_digits hs.2.2.1))

theorem panEach_map {α β : Type} {f : α → Pan β} {g : α → β} (h : ∀ x, f x = .val (g x)) : (xs : List α) → panEach f xs = .val (xs.map g)
  | [] => rfl
  | x :: xs => by rw [panEach, h, Pan.bind_val, panEach_map h xs]; rfl
theorem slice_doc {t : JTy} {g : t.Val → JVal} (h : ∀ x, t.marshal true x = .val (g x)) (addr : Bool) (v : Option (List t.Val)) :
    (JTy.slice t).marshal addr v = .val (match v with | none => .null | some xs => .arr (xs.map g)) := by
  cases v with
  | none => rfl
  | some xs => show (panEach (t.marshal true) xs).bind _ = _; rw [panEach_map h xs]; rfl
end Verif
