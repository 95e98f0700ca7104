import Verif.Lemmas.JsonFail
import Verif.Lemmas.JsonRead
import Verif.Lemmas.Base64Part
import Verif.Props.Blob
import Verif.Props.Text
import Verif.Props.Keys
/-! # C87: documents that fit only in part -/
namespace Verif

/-! ## Objects -/

/-- C87: members are read one after the other. After an error of an Unmarshal method nothing more is read; a value of the wrong kind is reported at the end, unless
something else is. -/
theorem C87_members (sha : Sha256) (fs : JFields) (old : fs.Val) (ms ms' : List (Bytes × JVal)) :
    (JTy.struct fs).unmarshal sha old (.obj (ms ++ ms')) = match (JTy.struct fs).unmarshal sha old (.obj ms) with
      | .panic w => .panic w
      | .val (v, .failed) => .val (v, .failed)
      | .val (v, .ok) => (JTy.struct fs).unmarshal sha v (.obj ms')
      | .val (v, .saved) => match (JTy.struct fs).unmarshal sha v (.obj ms') with
        | .panic w => .panic w
        | .val (w, .ok) => .val (w, .saved)
        | .val (w, e) => .val (w, e) := by
  simp only [unmarshal_members]
  rw [membersFrom_append]
  rcases membersFrom (readMember sha fs) ms old with ⟨⟨v, _ | _ | _⟩⟩ | w
  · rfl
  · have e : (JTy.struct fs).unmarshal sha v (.obj ms') = membersFrom (readMember sha fs) ms' v := rfl
    dsimp only
    rw [e]
    rcases membersFrom (readMember sha fs) ms' v with ⟨⟨v, _ | _ | _⟩⟩ | w <;> rfl
  · rfl
  · rfl

/-- C87: a member that has the name of the first field, or no exact name of another field and that name but for letter case, is read into the first field. -/
theorem C87_member (sha : Sha256) (key : Bytes) (om : Bool) (t : JTy) (fs : JFields) (x : t.Val) (xs : fs.Val) (k : Bytes) (j : JVal)
    (ha : ∀ c ∈ key, c.toNat < 128) (h : unquote k = key ∨ (unquote k ∉ fs.keys ∧ SameName (unquote k) key)) :
    (JTy.struct (.cons key om t fs)).unmarshal sha ((x, xs) : t.Val × fs.Val) (.obj [(k, j)]) = match t.unmarshal sha x j with
      | .panic w => .panic w
      | .val (y, e) => .val (((y, xs) : t.Val × fs.Val), e) := by
  have hf : (JFields.cons key om t fs).find (unquote k) = some 0 := by
    rcases h with h | ⟨h1, h2⟩
    · rw [h]; exact find_head _ _ _ _
    · have hne := (foldKey_iff _ _ ha).2 h2
      unfold JFields.find
      by_cases e : key = unquote k
      · simp [JFields.findIdx, e]
      · rw [JFields.findIdx, if_neg (by simpa using e), findIdx_none _ fs (fun k' hk' => by simp only [beq_eq_false_iff_ne]; rintro rfl; exact h1 hk')]
        simp [JFields.findIdx, hne]
  have e : readMember sha (.cons key om t fs) ((x, xs) : t.Val × fs.Val) (unquote k) j = (t.unmarshal sha x j).bind fun r => .val (((r.1, xs) : t.Val × fs.Val), r.2) := by
    unfold readMember; rw [hf]; rfl
  refine (membersFrom_one (readMember sha (.cons key om t fs)) k j ((x, xs) : t.Val × fs.Val)).trans (e.trans ?_)
  rcases t.unmarshal sha x j with ⟨⟨y, e⟩⟩ | w
  · cases e <;> rfl
  · rfl

/-- C87: any other member leaves the first field alone. -/
theorem C87_member_other (sha : Sha256) (key : Bytes) (om : Bool) (t : JTy) (fs : JFields) (x : t.Val) (xs : fs.Val) (k : Bytes) (j : JVal)
    (ha : ∀ c ∈ key, c.toNat < 128) (hk : unquote k ≠ key) (h : unquote k ∈ fs.keys ∨ ¬ SameName (unquote k) key) :
    (JTy.struct (.cons key om t fs)).unmarshal sha ((x, xs) : t.Val × fs.Val) (.obj [(k, j)]) = match (JTy.struct fs).unmarshal sha xs (.obj [(k, j)]) with
      | .panic w => .panic w
      | .val (ys, e) => .val (((x, ys) : t.Val × fs.Val), e) := by
  have hf : (JFields.cons key om t fs).find (unquote k) = (fs.find (unquote k)).map (· + 1) := by
    rcases h with h | h
    · obtain ⟨i, h1, h2⟩ := find_tail key (unquote k) om t fs h (Ne.symm hk)
      rw [h1, h2]; rfl
    · have hne : foldKey key ≠ foldKey (unquote k) := fun e => h ((foldKey_iff _ _ ha).1 e.symm)
      unfold JFields.find
      rw [JFields.findIdx, if_neg (by simpa using Ne.symm hk), JFields.findIdx, if_neg (by simpa using hne)]
      cases fs.findIdx (· == unquote k) <;> rfl
  have e : readMember sha (.cons key om t fs) ((x, xs) : t.Val × fs.Val) (unquote k) j =
      (readMember sha fs xs (unquote k) j).bind fun r => .val (((x, r.1) : t.Val × fs.Val), r.2) := by
    unfold readMember
    rw [hf]
    cases fs.find (unquote k) <;> rfl
  have e' : (JTy.struct fs).unmarshal sha xs (.obj [(k, j)]) = readMember sha fs xs (unquote k) j := membersFrom_one (readMember sha fs) k j xs
  refine (membersFrom_one (readMember sha (.cons key om t fs)) k j ((x, xs) : t.Val × fs.Val)).trans (e.trans ?_)
  rw [e']
  rcases readMember sha fs xs (unquote k) j with ⟨⟨y, e⟩⟩ | w <;> rfl
/-- C87: with no fields left, members are skipped. -/
theorem C87_member_none (sha : Sha256) (old : Unit) (k : Bytes) (j : JVal) : (JTy.struct .nil).unmarshal sha old (.obj [(k, j)]) = .val (old, .ok) := rfl

/-- "ſ" stands for the letter s: {"nameſ": …}, and a field of another name -/
example : SameName ([110, 65, 109, 101] ++ [0xC5, 0xBF]) (asc "names") ∧ ¬ SameName (asc "name_s") (asc "names") := by
  refine ⟨.char (.inl rfl) (.char (.inr (.inr (by decide))) (.char (.inl rfl) (.char (.inl rfl) (.longS (.inl rfl) .nil)))), fun h => ?_⟩
  rw [← foldKey_iff _ _ (by decide)] at h
  exact absurd h (by decide +kernel)

/-! ## Arrays -/

/-- C87: an array sets the length; the elements are read one after the other, over those that were there. -/
theorem C87_elements (sha : Sha256) (t : JTy) (old : Option (List t.Val)) (j : JVal) (js : List JVal) :
    (JTy.slice t).unmarshal sha old (.arr []) = .val ((some [] : Option (List t.Val)), .ok) ∧
    (JTy.slice t).unmarshal sha old (.arr (j :: js)) = match t.unmarshal sha ((old.getD []).headD t.zero) j with
      | .panic w => .panic w
      | .val (y, .failed) => .val ((some (y :: (old.getD []).tail) : Option (List t.Val)), .failed)
      | .val (y, e) => match (JTy.slice t).unmarshal sha (some (old.getD []).tail : Option (List t.Val)) (.arr js) with
        | .panic w => .panic w
        | .val (ys, .ok) => .val ((ys.map (y :: ·) : Option (List t.Val)), e)
        | .val (ys, e') => .val ((ys.map (y :: ·) : Option (List t.Val)), e') := by
  constructor
  · rfl
  · rw [unmarshal_elems, unmarshal_elems]
    simp only [elemsFrom, Option.getD_some]
    rcases t.unmarshal sha ((old.getD []).headD t.zero) j with ⟨⟨y, e⟩⟩ | w
    · dsimp only [Pan.bind]
      cases e with
      | failed => rfl
      | ok => rcases elemsFrom (t.unmarshal sha) t.zero js (old.getD []).tail with ⟨⟨ys, e'⟩⟩ | w <;> first | rfl | (cases e' <;> rfl)
      | saved => rcases elemsFrom (t.unmarshal sha) t.zero js (old.getD []).tail with ⟨⟨ys, e'⟩⟩ | w <;> first | rfl | (cases e' <;> rfl)
    · rfl

/-! ## Values that do not fit -/

/-- C87: null sets pointers, slices, Bytes and Blob to nil and leaves everything else as it was. -/
theorem C87_null (sha : Sha256) : (∀ (b : JBasic) (old : b.Val), (JTy.basic b).unmarshal sha old .null = .val (old, .ok)) ∧
    (∀ (x : TextTy) (old : x.Val), x ≠ .bytes → x ≠ .blob → (JTy.text x).unmarshal sha old .null = .val (old, .ok)) ∧
    (∀ old : Option Bytes, (JTy.text .bytes).unmarshal sha old .null = .val ((none : Option Bytes), .ok) ∧
      (JTy.text .blob).unmarshal sha old .null = .val ((none : Option Bytes), .ok)) ∧
    (∀ (t : JTy) (old : Option t.Val), (JTy.ptr t).unmarshal sha old .null = .val ((none : Option t.Val), .ok)) ∧
    (∀ (t : JTy) (old : Option (List t.Val)), (JTy.slice t).unmarshal sha old .null = .val ((none : Option (List t.Val)), .ok)) ∧
    ∀ (fs : JFields) (old : fs.Val), (JTy.struct fs).unmarshal sha old .null = .val (old, .ok) := by
  refine ⟨fun b old => ?_, fun x old h1 h2 => ?_, fun old => ⟨rfl, rfl⟩, fun t old => rfl, fun t old => rfl, fun fs old => rfl⟩
  · cases b <;> rfl
  · cases x <;> first | rfl | exact (h1 rfl).elim | exact (h2 rfl).elim

/-- C87: a value of the wrong kind, and a number out of range, leaves the variable as it was; reading goes on. -/
theorem C87_kind (sha : Sha256) (j : JVal) (hj : j ≠ .null) :
    (∀ (b : JBasic) (old : b.Val), (¬ ∃ new, b.Reads old j new) → (JTy.basic b).unmarshal sha old j = .val (old, .saved)) ∧
    (∀ (x : TextTy) (old : x.Val), (∀ l, j ≠ .str l) → (JTy.text x).unmarshal sha old j = .val (old, .saved)) ∧
    (∀ (t : JTy) (old : Option (List t.Val)), (∀ js, j ≠ .arr js) → (JTy.slice t).unmarshal sha old j = .val (old, .saved)) ∧
    ∀ (fs : JFields) (old : fs.Val), (∀ ms, j ≠ .obj ms) → (JTy.struct fs).unmarshal sha old j = .val (old, .saved) := by
  refine ⟨fun b old h => ?_, fun x old h => ?_, fun t old h => ?_, fun fs old h => ?_⟩
  · have hno : ∀ new, b.unmarshal old j ≠ (new, .ok) := fun new e => h ⟨new, (basic_iff b old new j).1 e⟩
    have hu {α : Type} (bits : Nat) (conv : Nat → α) (o : α) (h : ∀ new, storeUint bits conv o j ≠ (new, .ok)) : storeUint bits conv o j = (o, .saved) := by
      unfold storeUint at h ⊢
      split
      · split
        · split
          · rename_i hn; exact (h _ (by simp only [*, if_true]; rfl)).elim
          · rfl
        · rfl
      · exact (hj rfl).elim
      · rfl
    show Pan.val (b.unmarshal old j) = _
    congr 1
    cases b with
    | bool => cases j <;> first | rfl | exact (hj rfl).elim | exact (hno _ rfl).elim
    | string => cases j <;> first | rfl | exact (hj rfl).elim | exact (hno _ rfl).elim
    | u8 => exact hu 8 _ _ hno
    | u16 => exact hu 16 _ _ hno
    | u32 => exact hu 32 _ _ hno
    | uint => exact hu 64 _ _ hno
  · cases j <;> first | rfl | exact (hj rfl).elim | exact (h _ rfl).elim
  · cases j <;> first | rfl | exact (hj rfl).elim | exact (h _ rfl).elim
  · cases j <;> first | rfl | exact (hj rfl).elim | exact (h _ rfl).elim

/-- C87: a pointer that was nil points to what was read into a zero value, even if that failed. -/
theorem C87_pointer (sha : Sha256) (t : JTy) (old : Option t.Val) (j : JVal) (hj : j ≠ .null) :
    (JTy.ptr t).unmarshal sha old j = match t.unmarshal sha (old.getD t.zero) j with
      | .panic w => .panic w
      | .val (y, e) => .val ((some y : Option t.Val), e) := by
  have e : (JTy.ptr t).unmarshal sha old j = (t.unmarshal sha (Option.getD (α := t.Val) old t.zero) j).bind fun r => .val ((some r.1 : Option t.Val), r.2) := by
    cases j <;> first | rfl | exact (hj rfl).elim
  rw [e]
  rcases t.unmarshal sha (old.getD t.zero) j with ⟨⟨y, e⟩⟩ | w <;> rfl

/-- C87: text that is refused ends reading. The variable is left as it was, except for Uint128, Int128 and Blob (see below). -/
theorem C87_text (sha : Sha256) (x : TextTy) (old new : x.Val) (l : Bytes) (e : Err) (h : x.unmarshal sha old (unquote l) = .val (new, some e)) :
    (JTy.text x).unmarshal sha old (.str l) = .val (new, .failed) ∧ (x ≠ .uint128 → x ≠ .int128 → x ≠ .blob → new = old) := by
  constructor
  · show ofMethod (x.unmarshal sha old (unquote l)) = _
    rw [h]; rfl
  · intro h1 h2 h3
    obtain ⟨c1, c2, c3, _, _, c6, _, c8⟩ := C63_unchanged_partial (unquote l) e
    have hv {α : Type} {p : α × Option Err} {o n : α} (hc : p.2 = some e → p.1 = o) (hp : Pan.val p = .val (n, some e)) : n = o := by
      injection hp with hp
      subst hp
      exact hc rfl
    cases x with
    | name => exact hv (p := Name.unmarshalText (unquote l)) (fun hh => by cases hh) h
    | symbol => exact hv (c1 _) h
    | symbolCode => exact hv (c2 _) h
    | asset => exact hv (c3 _) h
    | bytes =>
      refine hv (p := bytesUnmarshalText old (unquote l)) (fun hh => ?_) h
      unfold bytesUnmarshalText at hh
      split at hh <;> cases hh
    | blob => exact (h3 rfl).elim
    | checksum160 => exact c8 20 old new h
    | checksum256 => exact c8 32 old new h
    | checksum512 => exact c8 64 old new h
    | uint128 => exact (h1 rfl).elim
    | int128 => exact (h2 rfl).elim
    | float128 => exact hv (c6 _) h
    | publicKey => exact C63_key sha old new _ e h
    | signature => exact C63_signature old new _ e h
    | timePoint => exact hv (p := TimePoint.unmarshalText old (unquote l)) (fun hh => by unfold TimePoint.unmarshalText at hh ⊢; split at hh <;> first | rfl | cases hh) h
    | timePointSec => exact hv (p := TimePointSec.unmarshalText old (unquote l)) (fun hh => by unfold TimePointSec.unmarshalText at hh ⊢; split at hh <;> first | rfl | cases hh) h
    | blockTimestamp => exact hv (p := BlockTimestamp.unmarshalText old (unquote l)) (fun hh => by unfold BlockTimestamp.unmarshalText at hh ⊢; split at hh <;> first | rfl | cases hh) h

/-- C87: a Blob becomes the longest part at the start that can be decoded, with or without an error. -/
theorem C87_blob (sha : Sha256) (old : Option Bytes) (l : Bytes) : ∃ p e, (JTy.text .blob).unmarshal sha old (.str l) = .val ((some p : Option Bytes), e) ∧
    (∃ q rest, unquote l ++ (if (unquote l).length % 4 = 2 then [61, 61] else if (unquote l).length % 4 = 3 then [61] else []) = q ++ rest ∧
      B64Text false (q.filter fun c => c != 10 && c != 13) p ∧ (e = .ok ↔ rest.filter (fun c => c != 10 && c != 13) = [])) ∧
    ∀ q rest p', unquote l ++ (if (unquote l).length % 4 = 2 then [61, 61] else if (unquote l).length % 4 = 3 then [61] else []) = q ++ rest →
      B64Text false (q.filter fun c => c != 10 && c != 13) p' → p' <+: p := by
  have hf : (fun c : UInt8 => !isNL c) = (fun c => c != 10 && c != 13) := by
    funext c; unfold isNL; simp [bne]
  rw [← hf]
  have hp : (if (unquote l).length % 4 = 2 then [61, 61] else if (unquote l).length % 4 = 3 then [61] else []) = blobPad (unquote l).length := by
    unfold blobPad; rfl
  rw [hp]
  have e : (JTy.text .blob).unmarshal sha old (.str l) = ofMethod (.val (blobUnmarshalText (unquote l))) := rfl
  rw [e, blobUnmarshalText, Blob.unmarshalText]
  generalize unquote l ++ blobPad (unquote l).length = s
  obtain ⟨⟨q, rest, h1, h2⟩, h3⟩ := b64Decode_part s
  rcases hd : b64Decode s with ⟨p, err⟩
  rw [hd] at h2 h3
  dsimp only at h2 h3
  cases err with
  | none =>
    refine ⟨p, .ok, rfl, ⟨s, [], by simp, (b64Decode_iff _ _).1 hd, by simp⟩, h3⟩
  | some err =>
    refine ⟨p, .failed, rfl, ⟨q, rest, h1, h2, ⟨fun h => (by cases h), fun h => ?_⟩⟩, h3⟩
    have : noNL s = noNL q := by
      rw [h1]; unfold noNL; rw [List.filter_append, h, List.append_nil]
    rw [← this, ← b64Decode_iff, hd] at h2
    cases h2

/-- C87: Bytes never refuse a text: they are left as they were if it is not hexadecimal. -/
theorem C87_bytes (sha : Sha256) (old : Option Bytes) (l : Bytes) :
    (∀ b, HexText (unquote l) b → (JTy.text .bytes).unmarshal sha old (.str l) = .val ((some b : Option Bytes), .ok)) ∧
    ((¬ ∃ b, HexText (unquote l) b) → (JTy.text .bytes).unmarshal sha old (.str l) = .val (old, .ok)) := by
  have e : (JTy.text .bytes).unmarshal sha old (.str l) = ofMethod (.val (bytesUnmarshalText old (unquote l))) := rfl
  constructor
  · intro b h
    rw [← hexDecode_iff] at h
    rw [e, bytesUnmarshalText, h]; rfl
  · intro h
    rw [e, bytesUnmarshalText]
    split
    · rename_i d hd; exact (h ⟨d, (hexDecode_iff _ _).mp hd⟩).elim
    · rfl

/-- C87: a Uint128 or Int128 becomes zero. -/
theorem C87_int128 (sha : Sha256) (old new : U128) (l : Bytes) :
    ((JTy.text .uint128).unmarshal sha old (.str l) = .val (new, .failed) → new = (⟨0, 0⟩ : U128)) ∧
    ((JTy.text .int128).unmarshal sha old (.str l) = .val (new, .failed) → new = (⟨0, 0⟩ : U128)) := by
  have hm {p : U128 × Option Err} (hp : p.2 ≠ none → p.1 = ⟨0, 0⟩) (h : ofMethod (.val p) = .val (new, .failed)) : new = (⟨0, 0⟩ : U128) := by
    obtain ⟨v, e⟩ := p
    cases e with
    | none => cases h
    | some e => cases h; exact hp (by simp)
  constructor
  · exact hm (p := Uint128.unmarshalText (unquote l)) fun h => by
      unfold Uint128.unmarshalText newUint128FromString at h ⊢
      split at h
      · rfl
      · split at h
        · rename_i hb; rw [if_pos hb]
        · rename_i hb
          rw [if_neg hb]
          split at h
          · exact (h rfl).elim
          · rfl
  · exact hm (p := Int128.unmarshalText (unquote l)) fun h => by
      unfold Int128.unmarshalText newInt128FromString at h ⊢
      split at h
      · rfl
      · split at h
        · rename_i hb; rw [if_pos hb]
        · rename_i hb
          rw [if_neg hb]
          split at h
          · exact (h rfl).elim
          · rfl

/-- C87: Uint64 and BlockNum keep their value if the text is refused, and reading ends. -/
theorem C87_uint64 (sha : Sha256) (j : JVal) : (∀ old : UInt64, (¬ ∃ new, Uint64.unmarshalJSON old j.print = (new, none)) → JTy.uint64.unmarshal sha old j = .val (old, .failed)) ∧
    ∀ old : UInt32, (¬ ∃ new, BlockNum.unmarshalJSON old j.print = (new, none)) → JTy.blockNum.unmarshal sha old j = .val (old, .failed) := by
  constructor
  · intro old h
    rcases hr : Uint64.unmarshalJSON old j.print with ⟨v, e⟩
    cases e with
    | none => exact (h ⟨v, hr⟩).elim
    | some e =>
      have := (C63_unchanged_partial j.print e).2.2.2.1 old (by rw [hr])
      rw [hr] at this
      dsimp only at this
      show ofMethod (.val (Uint64.unmarshalJSON old j.print)) = _
      rw [hr, this]; rfl
  · intro old h
    rcases hr : BlockNum.unmarshalJSON old j.print with ⟨v, e⟩
    cases e with
    | none => exact (h ⟨v, hr⟩).elim
    | some e =>
      have := (C63_unchanged_partial j.print e).2.2.2.2.1 old (by rw [hr])
      rw [hr] at this
      dsimp only at this
      show ofMethod (.val (BlockNum.unmarshalJSON old j.print)) = _
      rw [hr, this]; rfl

/-- A struct of a name, a symbol and a string. The number is reported at the end, the other fields are read. -/
def failTy : JTy := .struct (.cons (asc "a") false (.text .name) (.cons (asc "b") false (.text .symbol) (.cons (asc "c") false (.basic .string) .nil)))
example (sha : Sha256) : failTy.unmarshal sha (((7 : UInt64), (8 : UInt64), asc "x", ()) : UInt64 × UInt64 × Bytes × Unit)
    (.obj [(asc "A", .num (asc "1")), (asc "b", .str (asc "4,EOS")), (asc "d", .null), (asc "c", .str (asc "y"))]) =
    .val ((((7 : UInt64), (1397703940 : UInt64), asc "y", ()) : UInt64 × UInt64 × Bytes × Unit), .saved) := by rfl
/-- An error of UnmarshalText ends it: the string is not read. -/
example (sha : Sha256) : failTy.unmarshal sha (((7 : UInt64), (8 : UInt64), asc "x", ()) : UInt64 × UInt64 × Bytes × Unit)
    (.obj [(asc "a", .str (asc "eosio")), (asc "b", .str (asc "EOS")), (asc "c", .str (asc "y"))]) =
    .val ((((6138663577826885632 : UInt64), (8 : UInt64), asc "x", ()) : UInt64 × UInt64 × Bytes × Unit), .failed) := by rfl
/-- A Blob after an error -/
example (sha : Sha256) : (JTy.text .blob).unmarshal sha (some [1, 2]) (.str (asc "SGkh*AAA")) = .val ((some (asc "Hi!") : Option Bytes), .failed) := by rfl

end Verif
