import Verif.Lemmas.JsonMembers
import Verif.Model.JsonChain
/-! # C68–C72: JSON -/
namespace Verif

/-- C68: json.Unmarshal into a new variable reads what json.Marshal writes, but for nil bytes and what `omitempty` drops. Not covered: values whose text cannot be read
back, signatures that cannot be addressed, strings that are not UTF-8 (see `JTy.Good`). -/
theorem C68_roundtrip_partial (sha : Sha256) (t : JTy) (addr : Bool) (v : t.Val) (hw : t.Wf) (hd : t.depth ≤ 10000) (hg : t.Good addr v) :
    ∃ text w, jsonMarshal t addr v = .val text ∧ jsonUnmarshal sha t t.zero text = .val (w, .ok) ∧ t.Back v w := by
  obtain ⟨j, w, h1, h2, _, h4, h5⟩ := json_trip sha t maxNesting addr v t.zero hw hd hg (Or.inr rfl)
  exact ⟨j.print, w, by rw [jsonMarshal, h1]; rfl, by rw [jsonUnmarshal, jsonParse_print j h2]; exact h4, h5⟩

/-- C68: for types without `omitempty` and Float128 it does not matter what the variable held. -/
theorem C68_any_old_partial (sha : Sha256) (t : JTy) (addr : Bool) (v old : t.Val) (hw : t.Wf) (hd : t.depth ≤ 10000) (hg : t.Good addr v) (hp : t.Plain) :
    ∃ text w, jsonMarshal t addr v = .val text ∧ jsonUnmarshal sha t old text = .val (w, .ok) ∧ t.Back v w := by
  obtain ⟨j, w, h1, h2, _, h4, h5⟩ := json_trip sha t maxNesting addr v old hw hd hg (Or.inl hp)
  exact ⟨j.print, w, by rw [jsonMarshal, h1]; rfl, by rw [jsonUnmarshal, jsonParse_print j h2]; exact h4, h5⟩

/-- A type with every kind of part, and a value of it -/
def sampleJTy : JTy := .struct (.cons (asc "name") false .name (.cons (asc "sig") true (.ptr (.text .signature)) (.cons (asc "list") true (.slice (.text .asset)) .nil)))
def sampleJVal : sampleJTy.Val :=
  (((6138663577826885632 : UInt64), (some (⟨0, [1, 2, 3]⟩ : Sig), (some [(⟨-1, 1397703940⟩ : Asset)], ()))) : UInt64 × Option Sig × Option (List Asset) × Unit)
example : sampleJTy.Wf ∧ sampleJTy.depth ≤ 10000 ∧ sampleJTy.Good false sampleJVal := by
  refine ⟨⟨by decide, Ascii.utf8 (by unfold Ascii; decide), trivial, Ascii.utf8 (by unfold Ascii; decide), trivial, Ascii.utf8 (by unfold Ascii; decide), ⟨by simp, trivial⟩,
    trivial⟩, by decide, ⟨trivial, by simp⟩, ?_, ?_, trivial⟩
  · intro x h
    have h : some (⟨0, [1, 2, 3]⟩ : Sig) = some x := h
    injection h with h; subst h
    exact ⟨⟨by show (0 : UInt8).toNat ≤ 2; decide, fun _ => rfl⟩, id⟩
  · intro xs h x hx
    have h : some [(⟨-1, 1397703940⟩ : Asset)] = some xs := h
    injection h with h; subst h
    rw [List.mem_singleton.mp hx]
    exact ⟨⟨4, asc "EOS", by decide +kernel, by decide, by decide⟩, by simp⟩
example : jsonMarshal actionTy false (((6138663577826885632 : UInt64), (0 : UInt64), (some [] : Option (List permissionLevelTy.Val)), (some [1, 255] : Option Bytes), ()) :
    UInt64 × UInt64 × Option (List permissionLevelTy.Val) × Option Bytes × Unit) =
    .val (asc "{\"account\":\"eosio\",\"name\":\"\",\"authorization\":[],\"data\":\"01ff\"}") := by decide +kernel

theorem signature_string (g : Sig) (s : Bytes) (h : g.string = .val s) : jsonMarshal (.text .signature) true g = .val (34 :: (escapeStr s ++ [34])) := by
  have e : (JTy.text .signature).marshal true g = .val (.str (escapeStr s)) := by
    show (g.string).bind _ = _
    rw [h]; rfl
  unfold jsonMarshal
  rw [e]; rfl
/-- C68 fails for a Signature passed by value: it is written as an object, which cannot be read back; behind a pointer it is a string. -/
theorem C68_signature_violated (sha : Sha256) : ∃ text, jsonMarshal (.text .signature) false (⟨0, [1, 2, 3]⟩ : Sig) = .val text ∧
    text = asc "{\"Type\":0,\"Data\":\"AQID\"}" ∧ jsonUnmarshal sha (.text .signature) (⟨0, []⟩ : Sig) text = .val ((⟨0, []⟩ : Sig), .saved) ∧
    ∃ s, jsonMarshal (.text .signature) true (⟨0, [1, 2, 3]⟩ : Sig) = .val (34 :: s) := by
  refine ⟨_, by decide +kernel, rfl, ?_, ?_⟩
  · have hp : (JVal.obj [(asc "Type", .num (fmtNat 0)), (asc "Data", .str (asc "AQID"))]).print = asc "{\"Type\":0,\"Data\":\"AQID\"}" := by decide +kernel
    have h := jsonParse_print (.obj [(asc "Type", .num (fmtNat 0)), (asc "Data", .str (asc "AQID"))])
      ⟨by decide, lit_plain _ (by decide), ⟨_, rfl⟩, lit_plain _ (by decide), lit_plain _ (by decide), trivial⟩
    rw [hp] at h
    unfold jsonUnmarshal
    rw [h]; rfl
  · obtain ⟨s, h, _⟩ := C34_roundtrip ⟨0, [1, 2, 3]⟩ (by decide)
    exact ⟨escapeStr s ++ [34], signature_string _ s h⟩

/-! ## C69: actions and transactions -/

theorem map_back {α β : Type} {R : α → α → Prop} (f : α → β) (h : ∀ x y, R x y → f y = f x) {xs ys : List α} (hb : List.Forall₂ R xs ys) : ys.map f = xs.map f := by
  induction hb with
  | nil => rfl
  | cons h1 _ ih => rw [List.map_cons, List.map_cons, h _ _ h1, ih]
theorem listOf_back {t : JTy} {β : Type} (f : t.Val → β) (h : ∀ x y, t.Back x y → f y = f x) {v w : Option (List t.Val)} (hb : (JTy.slice t).Back v w) :
    listOf f w = listOf f v := by
  rcases hb with ⟨rfl, rfl⟩ | ⟨xs, ys, rfl, rfl, hb⟩
  · rfl
  · exact map_back f h hb
theorem permissionLevel_back (v w : permissionLevelTy.Val) (h : permissionLevelTy.Back v w) : PermissionLevel.ofJson w = PermissionLevel.ofJson v := by
  obtain ⟨a, b, _⟩ : UInt64 × UInt64 × Unit := v
  obtain ⟨c, d, _⟩ : UInt64 × UInt64 × Unit := w
  obtain ⟨h1 | h1, h2 | h2, _⟩ := h
  · change c = a at h1; change d = b at h2; subst h1; subst h2; rfl
  · cases h2.1
  · cases h1.1
  · cases h1.1
theorem bytes_back {v w : Option Bytes} (h : (JTy.text .bytes).Back v w) : w.getD [] = v.getD [] := by
  change w = some (v.getD []) at h
  rw [h]; rfl
theorem back_kept {t : JTy} {x y : t.Val} (h : t.Back x y ∨ (false = true ∧ t.Nothing x ∧ y = t.zero)) : t.Back x y := h.elim id fun h => by cases h.1
theorem action_back (v w : actionTy.Val) (h : actionTy.Back v w) : Action.ofJson w = Action.ofJson v := by
  obtain ⟨a, n, au, d, _⟩ : UInt64 × UInt64 × Option (List permissionLevelTy.Val) × Option Bytes × Unit := v
  obtain ⟨a', n', au', d', _⟩ : UInt64 × UInt64 × Option (List permissionLevelTy.Val) × Option Bytes × Unit := w
  obtain ⟨h1, h2, h3, h4, _⟩ := h
  have h1 : a' = a := back_kept h1
  have h2 : n' = n := back_kept h2
  have h3 : listOf PermissionLevel.ofJson au' = listOf PermissionLevel.ofJson au := listOf_back (t := permissionLevelTy) _ permissionLevel_back (back_kept h3)
  have h4 : d'.getD [] = d.getD [] := bytes_back (back_kept h4)
  show Action.mk a' n' (listOf PermissionLevel.ofJson au') (d'.getD []) = Action.mk a n (listOf PermissionLevel.ofJson au) (d.getD [])
  rw [h1, h2, h3, h4]
theorem txExtension_back (v w : txExtensionTy.Val) (h : txExtensionTy.Back v w) : TxExtension.ofJson w = TxExtension.ofJson v := by
  obtain ⟨t, d, _⟩ : UInt16 × Option Bytes × Unit := v
  obtain ⟨t', d', _⟩ : UInt16 × Option Bytes × Unit := w
  obtain ⟨h1, h2, _⟩ := h
  have h1 : t' = t := back_kept h1
  have h2 : d'.getD [] = d.getD [] := bytes_back (back_kept h2)
  show TxExtension.mk t' (d'.getD []) = TxExtension.mk t (d.getD [])
  rw [h1, h2]
theorem transaction_back (v w : transactionTy.Val) (h : transactionTy.Back v w) : Transaction.ofJson w = Transaction.ofJson v := by
  obtain ⟨e, n, p, u, c, d, cf, ac, ex, _⟩ : UInt32 × UInt16 × UInt32 × UInt64 × UInt8 × UInt64 × Option (List actionTy.Val) × Option (List actionTy.Val) ×
    Option (List txExtensionTy.Val) × Unit := v
  obtain ⟨e', n', p', u', c', d', cf', ac', ex', _⟩ : UInt32 × UInt16 × UInt32 × UInt64 × UInt8 × UInt64 × Option (List actionTy.Val) × Option (List actionTy.Val) ×
    Option (List txExtensionTy.Val) × Unit := w
  obtain ⟨h1, h2, h3, h4, h5, h6, h7, h8, h9, _⟩ := h
  have h1 : e' = e := back_kept h1
  have h2 : n' = n := back_kept h2
  have h3 : p' = p := back_kept h3
  have h4 : u' = u := back_kept h4
  have h5 : c' = c := back_kept h5
  have h6 : d' = d := back_kept h6
  have h7 : listOf Action.ofJson cf' = listOf Action.ofJson cf := listOf_back (t := actionTy) _ action_back (back_kept h7)
  have h8 : listOf Action.ofJson ac' = listOf Action.ofJson ac := listOf_back (t := actionTy) _ action_back (back_kept h8)
  have h9 : listOf TxExtension.ofJson ex' = listOf TxExtension.ofJson ex := listOf_back (t := txExtensionTy) _ txExtension_back (back_kept h9)
  show Transaction.mk ⟨e', n', p', u', c', d'⟩ (listOf Action.ofJson cf') (listOf Action.ofJson ac') (listOf TxExtension.ofJson ex') =
    Transaction.mk ⟨e, n, p, u, c, d⟩ (listOf Action.ofJson cf) (listOf Action.ofJson ac) (listOf TxExtension.ofJson ex)
  rw [h1, h2, h3, h4, h5, h6, h7, h8, h9]

theorem utf8_asc (s : Bytes) (h : s.all (fun c => decide (c.toNat < 128)) = true) : Utf8Text s :=
  Ascii.utf8 fun c hc => by simpa using List.all_eq_true.mp h c hc
theorem permissionLevel_good (addr : Bool) (v : permissionLevelTy.Val) : permissionLevelTy.Good addr v :=
  ⟨⟨trivial, fun h => by cases h⟩, ⟨trivial, fun h => by cases h⟩, trivial⟩
theorem action_good (addr : Bool) (v : actionTy.Val) : actionTy.Good addr v :=
  ⟨⟨trivial, fun h => by cases h⟩, ⟨trivial, fun h => by cases h⟩, fun _ _ x _ => permissionLevel_good true x, ⟨trivial, fun h => by cases h⟩, trivial⟩
theorem txExtension_good (addr : Bool) (v : txExtensionTy.Val) : txExtensionTy.Good addr v := ⟨trivial, ⟨trivial, fun h => by cases h⟩, trivial⟩
theorem transaction_good (addr : Bool) (v : transactionTy.Val) : transactionTy.Good addr v :=
  ⟨⟨trivial, fun h => by cases h⟩, trivial, trivial, trivial, trivial, trivial, fun _ _ x _ => action_good true x, fun _ _ x _ => action_good true x,
    fun _ _ x _ => txExtension_good true x, trivial⟩
theorem permissionLevel_wf : permissionLevelTy.Wf := ⟨by decide, utf8_asc _ (by decide), trivial, utf8_asc _ (by decide), trivial, trivial⟩
theorem action_wf : actionTy.Wf :=
  ⟨by decide, utf8_asc _ (by decide), trivial, utf8_asc _ (by decide), trivial, utf8_asc _ (by decide), ⟨by simp [permissionLevelTy], permissionLevel_wf⟩,
    utf8_asc _ (by decide), trivial, trivial⟩
theorem txExtension_wf : txExtensionTy.Wf := ⟨by decide, utf8_asc _ (by decide), trivial, utf8_asc _ (by decide), trivial, trivial⟩
theorem transaction_wf : transactionTy.Wf :=
  ⟨by decide, utf8_asc _ (by decide), trivial, utf8_asc _ (by decide), trivial, utf8_asc _ (by decide), trivial, utf8_asc _ (by decide), trivial,
    utf8_asc _ (by decide), trivial, utf8_asc _ (by decide), trivial, utf8_asc _ (by decide), ⟨by simp [actionTy], action_wf⟩,
    utf8_asc _ (by decide), ⟨by simp [actionTy], action_wf⟩, utf8_asc _ (by decide), ⟨by simp [txExtensionTy], txExtension_wf⟩, trivial⟩
theorem action_plain : actionTy.Plain :=
  ⟨rfl, by simp [JTy.Plain, JTy.name], rfl, by simp [JTy.Plain, JTy.name], rfl, ⟨rfl, by simp [JTy.Plain, JTy.name], rfl, by simp [JTy.Plain, JTy.name], trivial⟩, rfl,
    by simp [JTy.Plain], trivial⟩
theorem transaction_plain : transactionTy.Plain :=
  ⟨rfl, by simp [JTy.Plain], rfl, trivial, rfl, trivial, rfl, trivial, rfl, trivial, rfl, trivial, rfl, action_plain, rfl, action_plain, rfl,
    ⟨rfl, trivial, rfl, by simp [JTy.Plain], trivial⟩, trivial⟩

/-- C69: every action survives JSON, whatever the variable held. -/
theorem C69_action (sha : Sha256) (addr : Bool) (v old : actionTy.Val) :
    ∃ text w, jsonMarshal actionTy addr v = .val text ∧ jsonUnmarshal sha actionTy old text = .val (w, .ok) ∧ Action.ofJson w = Action.ofJson v := by
  obtain ⟨text, w, h1, h2, h3⟩ := C68_any_old_partial sha actionTy addr v old action_wf (by decide) (action_good addr v) action_plain
  exact ⟨text, w, h1, h2, action_back v w h3⟩

/-- C69: every transaction survives JSON, whatever the variable held. -/
theorem C69_transaction (sha : Sha256) (addr : Bool) (v old : transactionTy.Val) :
    ∃ text w, jsonMarshal transactionTy addr v = .val text ∧ jsonUnmarshal sha transactionTy old text = .val (w, .ok) ∧ Transaction.ofJson w = Transaction.ofJson v := by
  obtain ⟨text, w, h1, h2, h3⟩ := C68_any_old_partial sha transactionTy addr v old transaction_wf (by decide) (transaction_good addr v) transaction_plain
  exact ⟨text, w, h1, h2, transaction_back v w h3⟩

end Verif
