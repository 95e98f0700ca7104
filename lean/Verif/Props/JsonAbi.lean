import Verif.Lemmas.JsonRepair
import Verif.Props.Json
/-! # C70–C72: ABI definitions in JSON, validity of the output, order of members -/
namespace Verif

/-! ## C70 -/

theorem string_back {v w : Bytes} (h : JTy.string.Back v w ∨ (false = true ∧ JTy.string.Nothing v ∧ w = JTy.string.zero)) : w = v := back_kept h
theorem strings_back {v w : Option (List Bytes)} (h : (JTy.slice .string).Back v w) : listOf (id : Bytes → Bytes) w = listOf id v :=
  listOf_back (t := JTy.string) (id : Bytes → Bytes) (fun _ _ h => h) h
theorem listOf_back_omit {t : JTy} {β : Type} (f : t.Val → β) (h : ∀ x y, t.Back x y → f y = f x) {om : Bool} {v w : Option (List t.Val)}
    (hb : (JTy.slice t).Back v w ∨ (om = true ∧ (JTy.slice t).Nothing v ∧ w = (JTy.slice t).zero)) : listOf f w = listOf f v := by
  rcases hb with hb | ⟨_, rfl | rfl, rfl⟩
  · exact listOf_back f h hb
  · rfl
  · rfl
theorem abiType_back (v w : abiTypeJTy.Val) (h : abiTypeJTy.Back v w) : AbiType.ofJson w = AbiType.ofJson v := by
  obtain ⟨a, b, _⟩ : Bytes × Bytes × Unit := v
  obtain ⟨a', b', _⟩ : Bytes × Bytes × Unit := w
  obtain ⟨h1, h2, _⟩ := h
  have h1 : a' = a := string_back h1
  have h2 : b' = b := string_back h2
  show AbiType.mk a' b' = AbiType.mk a b
  rw [h1, h2]
theorem abiField_back (v w : abiFieldJTy.Val) (h : abiFieldJTy.Back v w) : AbiField.ofJson w = AbiField.ofJson v := by
  obtain ⟨a, b, _⟩ : Bytes × Bytes × Unit := v
  obtain ⟨a', b', _⟩ : Bytes × Bytes × Unit := w
  obtain ⟨h1, h2, _⟩ := h
  have h1 : a' = a := string_back h1
  have h2 : b' = b := string_back h2
  show AbiField.mk a' b' = AbiField.mk a b
  rw [h1, h2]
theorem abiClause_back (v w : abiClauseJTy.Val) (h : abiClauseJTy.Back v w) : AbiClause.ofJson w = AbiClause.ofJson v := by
  obtain ⟨a, b, _⟩ : Bytes × Bytes × Unit := v
  obtain ⟨a', b', _⟩ : Bytes × Bytes × Unit := w
  obtain ⟨h1, h2, _⟩ := h
  have h1 : a' = a := string_back h1
  have h2 : b' = b := string_back h2
  show AbiClause.mk a' b' = AbiClause.mk a b
  rw [h1, h2]
theorem abiVariant_back (v w : abiVariantJTy.Val) (h : abiVariantJTy.Back v w) : AbiVariant.ofJson w = AbiVariant.ofJson v := by
  obtain ⟨a, b, _⟩ : Bytes × Option (List Bytes) × Unit := v
  obtain ⟨a', b', _⟩ : Bytes × Option (List Bytes) × Unit := w
  obtain ⟨h1, h2, _⟩ := h
  have h1 : a' = a := string_back h1
  have h2 : listOf (id : Bytes → Bytes) b' = listOf id b := strings_back (back_kept h2)
  show AbiVariant.mk a' (listOf id b') = AbiVariant.mk a (listOf id b)
  rw [h1, h2]
theorem abiStruct_back (v w : abiStructJTy.Val) (h : abiStructJTy.Back v w) : AbiStruct.ofJson w = AbiStruct.ofJson v := by
  obtain ⟨a, b, c, _⟩ : Bytes × Bytes × Option (List abiFieldJTy.Val) × Unit := v
  obtain ⟨a', b', c', _⟩ : Bytes × Bytes × Option (List abiFieldJTy.Val) × Unit := w
  obtain ⟨h1, h2, h3, _⟩ := h
  have h3 : listOf AbiField.ofJson c' = listOf AbiField.ofJson c := listOf_back (t := abiFieldJTy) _ abiField_back (back_kept h3)
  have h1 : a' = a := string_back h1
  have h2 : b' = b := string_back h2
  show AbiStruct.mk a' b' (listOf AbiField.ofJson c') = AbiStruct.mk a b (listOf AbiField.ofJson c)
  rw [h1, h2, h3]
theorem abiAction_back (v w : abiActionJTy.Val) (h : abiActionJTy.Back v w) : AbiAction.ofJson w = AbiAction.ofJson v := by
  obtain ⟨a, b, c, _⟩ : UInt64 × Bytes × Bytes × Unit := v
  obtain ⟨a', b', c', _⟩ : UInt64 × Bytes × Bytes × Unit := w
  obtain ⟨h1, h2, h3, _⟩ := h
  have h1 : a' = a := back_kept h1
  have h2 : b' = b := string_back h2
  have h3 : c' = c := string_back h3
  show AbiAction.mk a' b' c' = AbiAction.mk a b c
  rw [h1, h2, h3]
theorem abiTable_back (v w : abiTableJTy.Val) (h : abiTableJTy.Back v w) : AbiTable.ofJson w = AbiTable.ofJson v := by
  obtain ⟨a, b, c, d, e, _⟩ : UInt64 × Bytes × Option (List Bytes) × Option (List Bytes) × Bytes × Unit := v
  obtain ⟨a', b', c', d', e', _⟩ : UInt64 × Bytes × Option (List Bytes) × Option (List Bytes) × Bytes × Unit := w
  obtain ⟨h1, h2, h3, h4, h5, _⟩ := h
  have h1 : a' = a := back_kept h1
  have h2 : b' = b := string_back h2
  have h3 : listOf (id : Bytes → Bytes) c' = listOf id c := strings_back (back_kept h3)
  have h4 : listOf (id : Bytes → Bytes) d' = listOf id d := strings_back (back_kept h4)
  have h5 : e' = e := string_back h5
  show AbiTable.mk a' b' (listOf id c') (listOf id d') e' = AbiTable.mk a b (listOf id c) (listOf id d) e
  rw [h1, h2, h3, h4, h5]
theorem abiExtension_back (v w : abiExtensionJTy.Val) (h : abiExtensionJTy.Back v w) : AbiExtension.ofJson w = AbiExtension.ofJson v := by
  obtain ⟨t, d, _⟩ : UInt16 × Option Bytes × Unit := v
  obtain ⟨t', d', _⟩ : UInt16 × Option Bytes × Unit := w
  obtain ⟨h1, h2, _⟩ := h
  have h1 : t' = t := back_kept h1
  have h2 : d'.getD [] = d.getD [] := bytes_back (back_kept h2)
  show AbiExtension.mk t' (d'.getD []) = AbiExtension.mk t (d.getD [])
  rw [h1, h2]
theorem abiErrorMessage_back (v w : abiErrorMessageJTy.Val) (h : abiErrorMessageJTy.Back v w) : AbiErrorMessage.ofJson w = AbiErrorMessage.ofJson v := by
  obtain ⟨a, b, _⟩ : UInt64 × Bytes × Unit := v
  obtain ⟨a', b', _⟩ : UInt64 × Bytes × Unit := w
  obtain ⟨h1, h2, _⟩ := h
  have h1 : a' = a := back_kept h1
  have h2 : b' = b := string_back h2
  show AbiErrorMessage.mk a' b' = AbiErrorMessage.mk a b
  rw [h1, h2]
theorem extensions_back {xs ys : List (Option abiExtensionJTy.Val)} (hb : List.Forall₂ (JTy.ptr abiExtensionJTy).Back xs ys) :
    (ys.filterMap id).map AbiExtension.ofJson = (xs.filterMap id).map AbiExtension.ofJson := by
  induction hb with
  | nil => rfl
  | cons h _ ih =>
    rcases h with ⟨rfl, rfl⟩ | ⟨x, y, rfl, rfl, h⟩
    · exact ih
    · show AbiExtension.ofJson y :: _ = AbiExtension.ofJson x :: _
      rw [abiExtension_back x y h]
      exact congrArg _ ih
theorem abi_back (v w : abiJTy.Val) (h : abiJTy.Back v w) : Abi.ofJson w = Abi.ofJson v := by
  obtain ⟨ve, ts, ss, as, tbs, cs, es, xs, vs, _⟩ : Bytes × Option (List abiTypeJTy.Val) × Option (List abiStructJTy.Val) × Option (List abiActionJTy.Val) ×
    Option (List abiTableJTy.Val) × Option (List abiClauseJTy.Val) × Option (List abiErrorMessageJTy.Val) × Option (List (Option abiExtensionJTy.Val)) ×
    Option (List abiVariantJTy.Val) × Unit := v
  obtain ⟨ve', ts', ss', as', tbs', cs', es', xs', vs', _⟩ : Bytes × Option (List abiTypeJTy.Val) × Option (List abiStructJTy.Val) × Option (List abiActionJTy.Val) ×
    Option (List abiTableJTy.Val) × Option (List abiClauseJTy.Val) × Option (List abiErrorMessageJTy.Val) × Option (List (Option abiExtensionJTy.Val)) ×
    Option (List abiVariantJTy.Val) × Unit := w
  obtain ⟨h1, h2, h3, h4, h5, h6, h7, h8, h9, _⟩ := h
  have h1 : ve' = ve := string_back h1
  have h2 : listOf AbiType.ofJson ts' = listOf AbiType.ofJson ts := listOf_back (t := abiTypeJTy) _ abiType_back (back_kept h2)
  have h3 : listOf AbiStruct.ofJson ss' = listOf AbiStruct.ofJson ss := listOf_back (t := abiStructJTy) _ abiStruct_back (back_kept h3)
  have h4 : listOf AbiAction.ofJson as' = listOf AbiAction.ofJson as := listOf_back (t := abiActionJTy) _ abiAction_back (back_kept h4)
  have h5 : listOf AbiTable.ofJson tbs' = listOf AbiTable.ofJson tbs := listOf_back (t := abiTableJTy) _ abiTable_back (back_kept h5)
  have h6 : listOf AbiClause.ofJson cs' = listOf AbiClause.ofJson cs := listOf_back (t := abiClauseJTy) _ abiClause_back (back_kept h6)
  have h7 : listOf AbiErrorMessage.ofJson es' = listOf AbiErrorMessage.ofJson es := listOf_back_omit (t := abiErrorMessageJTy) _ abiErrorMessage_back h7
  have h9 : listOf AbiVariant.ofJson vs' = listOf AbiVariant.ofJson vs := listOf_back_omit (t := abiVariantJTy) _ abiVariant_back h9
  have h8 : ((xs'.getD []).filterMap id).map AbiExtension.ofJson = ((xs.getD []).filterMap id).map AbiExtension.ofJson := by
    rcases h8 with (⟨a, b⟩ | ⟨x, y, a, b, hb⟩) | ⟨_, a, b⟩
    · change xs = none at a; change xs' = none at b; rw [a, b]
    · change xs = some x at a; change xs' = some y at b; rw [a, b]
      exact extensions_back hb
    · change xs' = none at b
      change xs = none ∨ xs = some [] at a
      rw [b]
      rcases a with rfl | rfl <;> rfl
  show Abi.mk ve' (listOf AbiType.ofJson ts') (listOf AbiStruct.ofJson ss') (listOf AbiAction.ofJson as') (listOf AbiTable.ofJson tbs') (listOf AbiClause.ofJson cs')
      (listOf AbiErrorMessage.ofJson es') (((xs'.getD []).filterMap id).map AbiExtension.ofJson) (listOf AbiVariant.ofJson vs') =
    Abi.mk ve (listOf AbiType.ofJson ts) (listOf AbiStruct.ofJson ss) (listOf AbiAction.ofJson as) (listOf AbiTable.ofJson tbs) (listOf AbiClause.ofJson cs)
      (listOf AbiErrorMessage.ofJson es) (((xs.getD []).filterMap id).map AbiExtension.ofJson) (listOf AbiVariant.ofJson vs)
  rw [h1, h2, h3, h4, h5, h6, h7, h8, h9]

theorem two_wf {k l : Bytes} {a b : JTy} (hk : k ≠ l) (h1 : Utf8Text k) (h2 : Utf8Text l) (ha : a.Wf) (hb : b.Wf) :
    (JTy.struct (.cons k false a (.cons l false b .nil))).Wf := ⟨by simpa [JFields.keys] using hk, h1, ha, h2, hb, trivial⟩
theorem abiJTy_wf : abiJTy.Wf := by
  have u := fun s h => utf8_asc s h
  have s2 : abiTypeJTy.Wf := two_wf (by decide) (u _ (by decide)) (u _ (by decide)) trivial trivial
  have s3 : abiFieldJTy.Wf := two_wf (by decide) (u _ (by decide)) (u _ (by decide)) trivial trivial
  have s4 : abiStructJTy.Wf := ⟨by decide, u _ (by decide), trivial, u _ (by decide), trivial, u _ (by decide), ⟨by simp [abiFieldJTy], s3⟩, trivial⟩
  have s5 : abiActionJTy.Wf := ⟨by decide, u _ (by decide), trivial, u _ (by decide), trivial, u _ (by decide), trivial, trivial⟩
  have str : (JTy.slice .string).Wf := ⟨by simp [JTy.string], trivial⟩
  have s6 : abiTableJTy.Wf := ⟨by decide, u _ (by decide), trivial, u _ (by decide), trivial, u _ (by decide), str, u _ (by decide), str, u _ (by decide), trivial, trivial⟩
  have s7 : abiClauseJTy.Wf := two_wf (by decide) (u _ (by decide)) (u _ (by decide)) trivial trivial
  have s8 : abiErrorMessageJTy.Wf := two_wf (by decide) (u _ (by decide)) (u _ (by decide)) trivial trivial
  have s9 : abiExtensionJTy.Wf := two_wf (by decide) (u _ (by decide)) (u _ (by decide)) trivial trivial
  have s10 : abiVariantJTy.Wf := two_wf (by decide) (u _ (by decide)) (u _ (by decide)) trivial str
  exact ⟨by decide, u _ (by decide), trivial, u _ (by decide), ⟨by simp [abiTypeJTy], s2⟩, u _ (by decide), ⟨by simp [abiStructJTy], s4⟩,
    u _ (by decide), ⟨by simp [abiActionJTy], s5⟩, u _ (by decide), ⟨by simp [abiTableJTy], s6⟩, u _ (by decide), ⟨by simp [abiClauseJTy], s7⟩,
    u _ (by decide), ⟨by simp [abiErrorMessageJTy], s8⟩, u _ (by decide), ⟨by simp, s9⟩, u _ (by decide), ⟨by simp [abiVariantJTy], s10⟩, trivial⟩

/-- C70: an ABI definition read into a new variable from the JSON written for it is the same definition. Its strings have to be UTF-8. -/
theorem C70_abi_partial (sha : Sha256) (addr : Bool) (v : abiJTy.Val) (hg : abiJTy.Good addr v) :
    ∃ text w, jsonMarshal abiJTy addr v = .val text ∧ jsonUnmarshal sha abiJTy abiJTy.zero text = .val (w, .ok) ∧ Abi.ofJson w = Abi.ofJson v := by
  obtain ⟨text, w, h1, h2, h3⟩ := C68_roundtrip_partial sha abiJTy addr v abiJTy_wf (by decide) hg
  exact ⟨text, w, h1, h2, abi_back v w h3⟩

/-- An ABI with the given version, types and variants and nothing else -/
def abiWith (version : Bytes) (types : Option (List abiTypeJTy.Val)) (variants : Option (List abiVariantJTy.Val)) : abiJTy.Val :=
  ((version, types, none, none, none, none, none, none, variants, ()) : Bytes × Option (List abiTypeJTy.Val) × Option (List abiStructJTy.Val) ×
    Option (List abiActionJTy.Val) × Option (List abiTableJTy.Val) × Option (List abiClauseJTy.Val) × Option (List abiErrorMessageJTy.Val) ×
    Option (List (Option abiExtensionJTy.Val)) × Option (List abiVariantJTy.Val) × Unit)
def jVariant : abiVariantJTy.Val := ((asc "v", some [asc "name"], ()) : Bytes × Option (List Bytes) × Unit)

example : jsonMarshal abiJTy false (abiWith (asc "eosio::abi/1.1") (some []) (some [jVariant])) =
    .val (asc "{\"version\":\"eosio::abi/1.1\",\"types\":[],\"structs\":null,\"actions\":null,\"tables\":null,\"ricardian_clauses\":null,\"variants\":[{\"name\":\"v\",\"types\":[\"name\"]}]}") := by
  decide +kernel
example : abiJTy.Good false (abiWith (asc "eosio::abi/1.1") (some []) (some [jVariant])) := by
  refine ⟨utf8_asc _ (by decide), ?_, ?_, ?_, ?_, ?_, ?_, ?_, ?_, trivial⟩
  · intro xs h x hx
    have h : some [] = some xs := h
    injection h with h; subst h; cases hx
  iterate 6 exact fun xs h => by cases h
  · intro xs h x hx
    have h : some [jVariant] = some xs := h
    injection h with h; subst h
    rw [List.mem_singleton.mp hx]
    refine ⟨utf8_asc _ (by decide), ?_, trivial⟩
    intro ys h y hy
    have h : some [asc "name"] = some ys := h
    injection h with h; subst h
    rw [List.mem_singleton.mp hy]
    exact utf8_asc _ (by decide)

/-- A string that is not UTF-8 comes back changed: the byte 0xFF becomes U+FFFD. -/
theorem C70_invalid_utf8_violated (sha : Sha256) : ∃ text w, jsonMarshal .string false ([255] : Bytes) = .val text ∧
    jsonUnmarshal sha .string ([] : Bytes) text = .val (w, .ok) ∧ w = ([239, 191, 189] : Bytes) := by
  refine ⟨(JVal.str (escapeStr [255])).print, _, rfl, ?_, (by decide +kernel : unquote (escapeStr [255]) = [239, 191, 189])⟩
  unfold jsonUnmarshal
  rw [jsonParse_print (.str (escapeStr [255])) (lit_escape [255])]; rfl

/-- What any string comes back as: itself, with every byte that does not belong to a UTF-8 character replaced by U+FFFD; so it comes back unchanged exactly if it is UTF-8. -/
theorem C70_string (sha : Sha256) (addr : Bool) (s old : Bytes) : ∃ text t, jsonMarshal .string addr s = .val text ∧
    jsonUnmarshal sha .string old text = .val ((t : Bytes), .ok) ∧ Repaired s t ∧ (t = s ↔ Utf8Text s) := by
  obtain ⟨t, ht⟩ := repaired_total _ s (Nat.le_refl _)
  refine ⟨(JVal.str (escapeStr s)).print, t, rfl, ?_, ht, repaired_self ht⟩
  have : jsonUnmarshal sha .string old (JVal.str (escapeStr s)).print = .val ((unquote (escapeStr s) : Bytes), .ok) := by
    unfold jsonUnmarshal
    rw [jsonParse_print (.str (escapeStr s)) (lit_escape s)]; rfl
  rw [this, unquote_readAs (escape_readAs ht)]
example : Repaired (65 :: [0xC3, 0xA9]) (65 :: [0xC3, 0xA9]) ∧ Utf8Text (65 :: [0xC3, 0xA9]) :=
  have h : Utf8Char 233 [0xC3, 0xA9] := .two 3 41 (by decide) (by decide) (by decide)
  ⟨.char 65 [65] _ _ (.one 65 (by decide)) (.char 233 _ _ _ h .nil), .cons 65 [65] _ (.one 65 (by decide)) (.cons 233 _ _ h .nil)⟩

/-! ## C28 inside json.Unmarshal -/

/-- C28: json passes UnmarshalText the part of its input between the quotes (stdlib json, unquoteBytes, when there are no escapes), with the rest of the input as spare
capacity. Reading an unpadded Blob overwrites the closing quote, and what was a JSON document is none any more. -/
theorem C28_json_violated : ∃ (doc : Bytes) (text : Buf), doc = asc "{\"d\":\"SGk\"}" ∧ text.arr = doc.drop 6 ∧ text.len = 3 ∧ text.content = asc "SGk" ∧
    (jsonParse doc).isSome ∧ (Blob.unmarshalTextBuf text).1 = (asc "Hi", none) ∧ (jsonParse (doc.take 6 ++ (Blob.unmarshalTextBuf text).2)).isNone :=
  ⟨_, ⟨(asc "{\"d\":\"SGk\"}").drop 6, 3, by decide⟩, rfl, rfl, rfl, by decide +kernel, by decide +kernel, by decide +kernel, by decide +kernel⟩

/-! ## C71 -/

/-- C71: whatever the value, what json.Marshal returns is one JSON document. -/
theorem C71_valid (t : JTy) (addr : Bool) (v : t.Val) (hd : t.depth ≤ 10000) (text : Bytes) (h : jsonMarshal t addr v = .val text) : ∃ j, jsonParse text = some j := by
  obtain ⟨j, h1, h⟩ := Pan.bind_eq h
  injection h with h; subst h
  exact ⟨j, jsonParse_print j (marshal_fine t maxNesting addr v j hd h1)⟩

/-- C71: any text that is no JSON is refused and the variable keeps its value. -/
theorem C71_refused (sha : Sha256) (t : JTy) (old : t.Val) (text : Bytes) (h : jsonParse text = none) : jsonUnmarshal sha t old text = .val (old, .failed) := by
  unfold jsonUnmarshal
  rw [h]
example : (jsonParse (asc "{\"account\":\"eosio\",}")).isNone ∧ (jsonParse (asc "[1] 2")).isNone ∧ (jsonParse (asc "01")).isNone := by decide +kernel

/-! ## C72 -/

/-- C72: a member whose name is no field's name, in any letter case, changes nothing wherever it stands. -/
theorem C72_unknown (sha : Sha256) (fs : JFields) (old : fs.Val) (a b : List (Bytes × JVal)) (k : Bytes) (j : JVal)
    (hk : ∀ key ∈ fs.keys, foldKey key ≠ foldKey (unquote k)) (h1 : (JVal.obj (a ++ (k, j) :: b)).Fine 10000) (h2 : (JVal.obj (a ++ b)).Fine 10000) :
    jsonUnmarshal sha (.struct fs) old (JVal.obj (a ++ (k, j) :: b)).print = jsonUnmarshal sha (.struct fs) old (JVal.obj (a ++ b)).print := by
  unfold jsonUnmarshal
  rw [jsonParse_print _ h1, jsonParse_print _ h2]
  show (JTy.struct fs).unmarshal sha old _ = (JTy.struct fs).unmarshal sha old _
  rw [unmarshal_obj, unmarshal_obj, members_skip sha fs k j b (find_unknown fs _ hk)]

/-- C72: if an object is read without error and no two of its names are equal up to letter case, any order of its members gives the same value. -/
theorem C72_order (sha : Sha256) (fs : JFields) (old w : fs.Val) (ms ms' : List (Bytes × JVal)) (hp : ms.Perm ms')
    (hd : ms.Pairwise fun p q => foldKey (unquote p.1) ≠ foldKey (unquote q.1)) (h1 : (JVal.obj ms).Fine 10000) (h2 : (JVal.obj ms').Fine 10000)
    (h : jsonUnmarshal sha (.struct fs) old (JVal.obj ms).print = .val (w, .ok)) : jsonUnmarshal sha (.struct fs) old (JVal.obj ms').print = .val (w, .ok) := by
  unfold jsonUnmarshal at h ⊢
  rw [jsonParse_print _ h1] at h
  rw [jsonParse_print _ h2]
  exact (unmarshal_obj sha fs old ms').trans (members_perm sha fs hp (apart_of_fold fs ms hd) old w ((unmarshal_obj sha fs old ms).symm.trans h))

example : foldKey (asc "Error_Code") = foldKey (asc "error_code") ∧ foldKey (asc "actions") ≠ foldKey (asc "action") := by decide +kernel
example : (JVal.obj [(asc "permission", .str (asc "active")), (asc "Actor", .str (asc "eosio")), (asc "x", .arr [.null])]).Fine 10000 :=
  ⟨by decide, lit_plain _ (by decide), lit_plain _ (by decide), lit_plain _ (by decide), lit_plain _ (by decide), lit_plain _ (by decide), ⟨by decide, trivial, trivial⟩, trivial⟩

end Verif
