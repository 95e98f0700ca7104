import Verif.Lemmas.JsonRepair
import Verif.Lemmas.JsonText
import Verif.Spec.JsonFail
import Verif.Model.Json
/-! # Lemmas for C87 -/
namespace Verif

/-- Lower case, of one byte -/
def foldByte (c : UInt8) : UInt8 := if 65 ≤ c ∧ c ≤ 90 then c + 32 else c

theorem foldByte_toNat (c : UInt8) : (foldByte c).toNat = if 65 ≤ c.toNat ∧ c.toNat ≤ 90 then c.toNat + 32 else c.toNat := by
  unfold foldByte
  have e : (65 ≤ c ∧ c ≤ 90) ↔ (65 ≤ c.toNat ∧ c.toNat ≤ 90) := by rw [UInt8.le_iff_toNat_le, UInt8.le_iff_toNat_le]; rfl
  simp only [e]
  split
  · rw [UInt8.toNat_add]
    have : (32 : UInt8).toNat = 32 := rfl
    omega
  · rfl

theorem foldByte_iff (c d : UInt8) (hd : d.toNat < 128) : foldByte c = foldByte d ↔ SameLetter c d := by
  unfold SameLetter
  rw [← UInt8.toNat_inj, foldByte_toNat, foldByte_toNat, ← UInt8.toNat_inj (a := c)]
  split <;> split <;> omega

theorem decodeRune_pos (c : UInt8) (t : Bytes) : 1 ≤ (decodeRune (c :: t)).2 := by
  rcases decodeRune_cases c t with h | ⟨r, b, u, h1, h2⟩
  · rw [h]; decide
  · rw [h2, decodeRune_char h1]
    cases h1 <;> simp

theorem foldAux_long (n : Nat) (s : Bytes) (h : s.length ≤ n) : foldAux n s = foldAux s.length s := by
  match n, s, h with
  | 0, [], _ => rfl
  | n + 1, [], _ => rfl
  | n + 1, c :: t, h =>
    have hn : t.length ≤ n := by simpa using h
    have ih (u : Bytes) (hu : u.length ≤ t.length) : foldAux n u = foldAux t.length u := by
      rw [foldAux_long n u (by omega), foldAux_long t.length u hu]
    rw [List.length_cons, foldAux, foldAux]
    split
    · rw [ih t (Nat.le_refl _)]
    · have hp := decodeRune_pos c t
      dsimp only
      rw [ih _ (by rw [List.length_drop, List.length_cons]; omega)]
termination_by n

theorem foldKey_ascii (c : UInt8) (t : Bytes) (h : c.toNat < 128) : foldKey (c :: t) = foldByte c :: foldKey t := by
  unfold foldKey
  rw [List.length_cons, foldAux, if_pos (UInt8.lt_iff_toNat_lt.2 h)]
  rfl

theorem foldKey_high (c : UInt8) (t : Bytes) (h : 128 ≤ c.toNat) : foldKey (c :: t) =
    (if (decodeRune (c :: t)).1 = 0x212A then [107] else if (decodeRune (c :: t)).1 = 0x017F then [115] else (c :: t).take (decodeRune (c :: t)).2) ++
      foldKey ((c :: t).drop (decodeRune (c :: t)).2) := by
  unfold foldKey
  have hp := decodeRune_pos c t
  rw [List.length_cons, foldAux, if_neg (by rw [UInt8.lt_iff_toNat_lt]; exact Nat.not_lt.2 h)]
  dsimp only
  rw [foldAux_long t.length _ (by rw [List.length_drop, List.length_cons]; omega)]

theorem foldKey_names (key : Bytes) (hk : ∀ c ∈ key, c.toNat < 128) : foldKey key = key.map foldByte := by
  induction key with
  | nil => rfl
  | cons c t ih => rw [foldKey_ascii c t (hk c (by simp)), ih fun c h => hk c (by simp [h])]; rfl

theorem kelvin_char : Utf8Char 0x212A [0xE2, 0x84, 0xAA] := .three 2 4 42 (by decide) (by decide) (by decide) (by decide) (by unfold Scalar; decide)
theorem longS_char : Utf8Char 0x017F [0xC5, 0xBF] := .two 5 63 (by decide) (by decide) (by decide)
/-- The bytes of the two characters -/
theorem utf8_kelvin {r : Nat} {b : Bytes} (h : Utf8Char r b) : (r = 0x212A ↔ b = [0xE2, 0x84, 0xAA]) ∧ (r = 0x017F ↔ b = [0xC5, 0xBF]) := by
  have key : ∀ {r' b'}, Utf8Char r' b' → (r = r' ↔ b = b') := fun {r' b'} h' => by
    constructor
    · intro e; subst e; exact (utf8Encode_char h).symm.trans (utf8Encode_char h')
    · intro e; subst e
      have h1 := decodeRune_char h []
      rw [decodeRune_char h' []] at h1
      exact (congrArg Prod.fst h1).symm
  exact ⟨key kelvin_char, key longS_char⟩

theorem sameLetter_ascii {c d : UInt8} (h : SameLetter c d) (hd : d.toNat < 128) : c.toNat < 128 := by
  rcases h with rfl | h | h <;> omega
/-- A name that starts with a byte that is kept, and is no ASCII, is no name of a field -/
theorem foldKey_foreign (c : UInt8) (t u key : Bytes) (hc : 128 ≤ c.toNat) (hk : ∀ c ∈ key, c.toNat < 128) (hf : foldKey (c :: t) = c :: u)
    (h1 : (decodeRune (c :: t)).1 ≠ 0x212A) (h2 : (decodeRune (c :: t)).1 ≠ 0x017F) : foldKey (c :: t) = foldKey key ↔ SameName (c :: t) key := by
  constructor
  · intro h
    rw [hf, foldKey_names key hk] at h
    cases key with
    | nil => cases h
    | cons d key =>
      have h := congrArg UInt8.toNat (List.cons.inj h).1
      have hd := hk d (by simp)
      rw [foldByte_toNat] at h
      split at h <;> omega
  · intro h
    cases h with
    | char h1 h2 => exact absurd (sameLetter_ascii h1 (hk _ (by simp))) (by omega)
    | @kelvin d s key h3 h4 => exact absurd (congrArg Prod.fst (decodeRune_char kelvin_char s)) h1
    | @longS d s key h3 h4 => exact absurd (congrArg Prod.fst (decodeRune_char longS_char s)) h2

/-- Names are folded to the same text if they are the same but for letter case -/
theorem foldKey_iff (s key : Bytes) (hk : ∀ c ∈ key, c.toNat < 128) : foldKey s = foldKey key ↔ SameName s key := by
  match s with
  | [] =>
    rw [foldKey_names key hk]
    cases key with
    | nil => exact ⟨fun _ => .nil, fun _ => rfl⟩
    | cons d key => exact ⟨fun h => (by cases h), fun h => (by cases h)⟩
  | c :: t =>
    by_cases hc : c.toNat < 128
    · rw [foldKey_ascii c t hc]
      cases key with
      | nil => exact ⟨fun h => (by cases h), fun h => (by cases h)⟩
      | cons d key =>
        have hd := hk d (by simp)
        have hk' : ∀ c ∈ key, c.toNat < 128 := fun c h => hk c (by simp [h])
        rw [foldKey_ascii d key hd, List.cons.injEq, foldByte_iff c d hd, foldKey_iff t key hk']
        constructor
        · exact fun h => .char h.1 h.2
        · intro h
          cases h with
          | char h1 h2 => exact ⟨h1, h2⟩
          | kelvin => exact absurd hc (by decide)
          | longS => exact absurd hc (by decide)
    · have hc := Nat.not_lt.1 hc
      have hh := foldKey_high c t hc
      rcases decodeRune_cases c t with he | ⟨r, b, u, h1, h2⟩
      · have e1 : (decodeRune (c :: t)).1 = 0xFFFD := by rw [he]; rfl
        have e2 : (decodeRune (c :: t)).2 = 1 := by rw [he]; rfl
        rw [if_neg (by rw [e1]; decide), if_neg (by rw [e1]; decide), e2] at hh
        exact foldKey_foreign c t _ key hc hk hh (by rw [e1]; decide) (by rw [e1]; decide)
      · have e := decodeRune_char h1 u
        rw [← h2] at e
        have e1 : (decodeRune (c :: t)).1 = r := by rw [e]
        have e2 : (decodeRune (c :: t)).2 = b.length := by rw [e]
        have hb := char_ne_nil h1
        have hlen : u.length < (c :: t).length := by rw [h2, List.length_append]; omega
        have htake : (c :: t).take b.length = b := by rw [h2]; simp
        have hdrop : (c :: t).drop b.length = u := by rw [h2]; simp
        rw [e1, e2, htake, hdrop] at hh
        obtain ⟨k1, k2⟩ := utf8_kelvin h1
        by_cases hr1 : r = 0x212A
        · rw [if_pos hr1] at hh
          rw [k1.1 hr1] at h2
          have step (d : UInt8) (key : Bytes) (hk : ∀ c ∈ d :: key, c.toNat < 128) : foldKey (c :: t) = foldKey (d :: key) ↔ SameLetter 107 d ∧ SameName u key := by
            rw [hh, foldKey_ascii d key (hk d (by simp)), List.singleton_append, List.cons.injEq, ← foldByte_iff 107 d (hk d (by simp)),
              foldKey_iff u key fun c h => hk c (by simp [h])]
            exact Iff.rfl
          cases key with
          | nil =>
            rw [hh]
            exact ⟨fun h => (by cases h), fun h => (by cases h)⟩
          | cons d key =>
            rw [step d key hk, h2]
            constructor
            · exact fun h => .kelvin h.1 h.2
            · intro h
              cases h with
              | char h1 _ => exact absurd (sameLetter_ascii h1 (hk d (by simp))) (by decide)
              | kelvin h1 h2 => exact ⟨h1, h2⟩
        · by_cases hr2 : r = 0x017F
          · rw [if_neg hr1, if_pos hr2] at hh
            rw [k2.1 hr2] at h2
            have step (d : UInt8) (key : Bytes) (hk : ∀ c ∈ d :: key, c.toNat < 128) : foldKey (c :: t) = foldKey (d :: key) ↔ SameLetter 115 d ∧ SameName u key := by
              rw [hh, foldKey_ascii d key (hk d (by simp)), List.singleton_append, List.cons.injEq, ← foldByte_iff 115 d (hk d (by simp)),
                foldKey_iff u key fun c h => hk c (by simp [h])]
              exact Iff.rfl
            cases key with
            | nil =>
              rw [hh]
              exact ⟨fun h => (by cases h), fun h => (by cases h)⟩
            | cons d key =>
              rw [step d key hk, h2]
              constructor
              · exact fun h => .longS h.1 h.2
              · intro h
                cases h with
                | char h1 _ => exact absurd (sameLetter_ascii h1 (hk d (by simp))) (by decide)
                | longS h1 h2 => exact ⟨h1, h2⟩
          · rw [if_neg hr1, if_neg hr2] at hh
            obtain ⟨c', b', rfl⟩ : ∃ c' b', b = c' :: b' := by
              cases b with
              | nil => simp at hb
              | cons c' b' => exact ⟨_, _, rfl⟩
            rw [List.cons_append, List.cons.injEq] at h2
            rw [← h2.1] at hh
            exact foldKey_foreign c t _ key hc hk hh (by rw [e1]; exact hr1) (by rw [e1]; exact hr2)
termination_by s.length

/-- One member, and one object -/
def readMember (sha : Sha256) (fs : JFields) (v : fs.Val) (k : Bytes) (j : JVal) : Pan (fs.Val × JErr) := match fs.find k with
  | some i => fs.unmarshalAt sha i v j
  | none => .val (v, .ok)
theorem unmarshal_members (sha : Sha256) (fs : JFields) (old : fs.Val) (ms : List (Bytes × JVal)) :
    (JTy.struct fs).unmarshal sha old (.obj ms) = membersFrom (readMember sha fs) ms old := rfl
theorem unmarshal_elems (sha : Sha256) (t : JTy) (old : Option (List t.Val)) (js : List JVal) : (JTy.slice t).unmarshal sha old (.arr js) =
    (elemsFrom (t.unmarshal sha) t.zero js (Option.getD (α := List t.Val) old [])).bind fun r => .val ((some r.1 : Option (List t.Val)), r.2) := rfl

theorem membersFrom_append {α : Type} (set : α → Bytes → JVal → Pan (α × JErr)) (ms ms' : List (Bytes × JVal)) (old : α) :
    membersFrom set (ms ++ ms') old = match membersFrom set ms old with
      | .panic w => .panic w
      | .val (v, .failed) => .val (v, .failed)
      | .val (v, .ok) => membersFrom set ms' v
      | .val (v, .saved) => match membersFrom set ms' v with
        | .panic w => .panic w
        | .val (w, .ok) => .val (w, .saved)
        | .val (w, e) => .val (w, e) := by
  induction ms generalizing old with
  | nil => rfl
  | cons m ms ih =>
    obtain ⟨k, j⟩ := m
    rw [List.cons_append, membersFrom, membersFrom]
    rcases set old (unquote k) j with ⟨⟨v, e⟩⟩ | w
    · dsimp only [Pan.bind]
      by_cases he : e = .failed
      · subst he; rfl
      · rw [if_neg he, if_neg he, ih v]
        rcases membersFrom set ms v with ⟨⟨v', e'⟩⟩ | w
        · cases e with
          | failed => exact (he rfl).elim
          | ok =>
            cases e' with
            | failed => rfl
            | ok => dsimp only [JErr.and]; generalize membersFrom set ms' v' = r; rcases r with ⟨⟨v'', _ | _ | _⟩⟩ | w <;> rfl
            | saved => dsimp only [JErr.and]; generalize membersFrom set ms' v' = r; rcases r with ⟨⟨v'', _ | _ | _⟩⟩ | w <;> rfl
          | saved =>
            cases e' with
            | failed => rfl
            | ok => dsimp only [JErr.and]; generalize membersFrom set ms' v' = r; rcases r with ⟨⟨v'', _ | _ | _⟩⟩ | w <;> rfl
            | saved => dsimp only [JErr.and]; generalize membersFrom set ms' v' = r; rcases r with ⟨⟨v'', _ | _ | _⟩⟩ | w <;> rfl
        · rfl
    · rfl
theorem membersFrom_one {α : Type} (set : α → Bytes → JVal → Pan (α × JErr)) (k : Bytes) (j : JVal) (old : α) : membersFrom set [(k, j)] old = set old (unquote k) j := by
  rw [membersFrom]
  rcases set old (unquote k) j with ⟨⟨v, e⟩⟩ | w
  · cases e <;> rfl
  · rfl

end Verif
