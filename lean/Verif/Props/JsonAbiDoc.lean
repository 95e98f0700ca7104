import Verif.Props.JsonDoc
import Verif.Props.JsonAbi
/-! # C70: what ABI definitions look like in JSON -/
namespace Verif

/-- A string, escaped -/
def docStr (s : Bytes) : JVal := .str (escapeStr s)
/-- Numbers above 2^32-1 are quoted -/
def docUint64 (v : UInt64) : JVal := if v.toNat > 2 ^ 32 - 1 then .str (fmtNat v.toNat) else .num (fmtNat v.toNat)
/-- A member that is left out if the list is nil or empty -/
def docOmit {α : Type} (key : Bytes) (f : α → JVal) : Option (List α) → List (Bytes × JVal)
  | none => []
  | some [] => []
  | some xs => [(key, .arr (xs.map f))]

def abiTypeDoc : abiTypeJTy.Val → JVal := fun v =>
  let (n, t, _) : Bytes × Bytes × Unit := v
  .obj [(asc "new_type_name", docStr n), (asc "type", docStr t)]
def abiFieldDoc : abiFieldJTy.Val → JVal := fun v =>
  let (n, t, _) : Bytes × Bytes × Unit := v
  .obj [(asc "name", docStr n), (asc "type", docStr t)]
def abiStructDoc : abiStructJTy.Val → JVal := fun v =>
  let (n, b, fs, _) : Bytes × Bytes × Option (List abiFieldJTy.Val) × Unit := v
  .obj [(asc "name", docStr n), (asc "base", docStr b), (asc "fields", docList abiFieldDoc fs)]
def abiActionDoc : abiActionJTy.Val → JVal := fun v =>
  let (n, t, r, _) : UInt64 × Bytes × Bytes × Unit := v
  .obj [(asc "name", .str (Name.string n)), (asc "type", docStr t), (asc "ricardian_contract", docStr r)]
def abiTableDoc : abiTableJTy.Val → JVal := fun v =>
  let (n, i, kn, kt, t, _) : UInt64 × Bytes × Option (List Bytes) × Option (List Bytes) × Bytes × Unit := v
  .obj [(asc "name", .str (Name.string n)), (asc "index_type", docStr i), (asc "key_names", docList docStr kn), (asc "key_types", docList docStr kt), (asc "type", docStr t)]
def abiClauseDoc : abiClauseJTy.Val → JVal := fun v =>
  let (i, b, _) : Bytes × Bytes × Unit := v
  .obj [(asc "id", docStr i), (asc "body", docStr b)]
def abiErrorMessageDoc : abiErrorMessageJTy.Val → JVal := fun v =>
  let (c, m, _) : UInt64 × Bytes × Unit := v
  .obj [(asc "error_code", docUint64 c), (asc "error_msg", docStr m)]
/-- The extensions are pointers; nil is null. -/
def abiExtensionDoc : Option abiExtensionJTy.Val → JVal
  | none => .null
  | some v =>
    let (t, d, _) : UInt16 × Option Bytes × Unit := v
    .obj [(asc "type", docNum t.toNat), (asc "data", docBytes d)]
def abiVariantDoc : abiVariantJTy.Val → JVal := fun v =>
  let (n, ts, _) : Bytes × Option (List Bytes) × Unit := v
  .obj [(asc "name", docStr n), (asc "types", docList docStr ts)]
def abiDoc : abiJTy.Val → JVal := fun v =>
  let (ve, ts, ss, as, tbs, cs, es, xs, vs, _) : Bytes × Option (List abiTypeJTy.Val) × Option (List abiStructJTy.Val) × Option (List abiActionJTy.Val) ×
    Option (List abiTableJTy.Val) × Option (List abiClauseJTy.Val) × Option (List abiErrorMessageJTy.Val) × Option (List (Option abiExtensionJTy.Val)) ×
    Option (List abiVariantJTy.Val) × Unit := v
  .obj ([(asc "version", docStr ve), (asc "types", docList abiTypeDoc ts), (asc "structs", docList abiStructDoc ss), (asc "actions", docList abiActionDoc as),
    (asc "tables", docList abiTableDoc tbs), (asc "ricardian_clauses", docList abiClauseDoc cs)] ++ docOmit (asc "error_messages") abiErrorMessageDoc es ++
    docOmit (asc "abi_extensions") abiExtensionDoc xs ++ docOmit (asc "variants") abiVariantDoc vs)

theorem uint64_doc (addr : Bool) (v : UInt64) : JTy.uint64.marshal addr v = .val (docUint64 v) := by
  show Pan.val (compactJSON (writeUintJSON v)) = _
  congr 1
  unfold compactJSON writeUintJSON docUint64
  have hl : StrLit (fmtNat v.toNat) := by
    have h := (fmtNat_spec v.toNat).1
    generalize fmtNat v.toNat = s at h
    induction s with
    | nil => exact .nil
    | cons c s ih =>
      have hc := h c (by simp)
      refine .char c s (by omega) ?_ ?_ (ih fun x hx => h x (by simp [hx]))
      · rintro rfl; revert hc; decide
      · rintro rfl; revert hc; decide
  split
  · have hp : (JVal.str (fmtNat v.toNat)).print = [34] ++ fmtNat v.toNat ++ [34] := by simp [JVal.print]
    rw [← hp, jsonParse_print (.str (fmtNat v.toNat)) hl]; rfl
  · have := jsonParse_print (.num (fmtNat v.toNat)) ⟨_, rfl⟩
    rw [show (JVal.num (fmtNat v.toNat)).print = fmtNat v.toNat by simp [JVal.print]] at this
    rw [this]; rfl
theorem omit_doc {key : Bytes} {t : JTy} {g : t.Val → JVal} {fs : JFields} {addr : Bool} (x : Option (List t.Val)) {xs : fs.Val} {js : List (Bytes × JVal)}
    (hk : key.all PlainByte = true) (h1 : ∀ x, t.marshal true x = .val (g x)) (h2 : fs.marshal addr xs = .val js) :
    (JFields.cons key true (.slice t) fs).marshal addr ((x, xs) : (JTy.slice t).Val × fs.Val) = .val (docOmit key g x ++ js) := by
  match x with
  | none => exact h2
  | some [] => exact h2
  | some (y :: ys) =>
    show ((JTy.slice t).marshal addr (some (y :: ys))).bind _ = _
    rw [list_doc h1, Pan.bind_val]
    show (fs.marshal addr xs).bind _ = _
    rw [h2, Pan.bind_val, escape_plain (List.all_eq_true.mp hk)]; rfl

theorem strings_doc (addr : Bool) (v : Option (List Bytes)) : (JTy.slice .string).marshal addr v = .val (docList docStr v) := list_doc (t := .string) (fun _ => rfl) addr v
theorem abiType_doc (v : abiTypeJTy.Val) : abiTypeJTy.marshal true v = .val (abiTypeDoc v) := by
  obtain ⟨n, t, _⟩ : Bytes × Bytes × Unit := v
  exact struct_doc (member_doc (by decide) rfl (member_doc (by decide) rfl rfl))
theorem abiField_doc (v : abiFieldJTy.Val) : abiFieldJTy.marshal true v = .val (abiFieldDoc v) := by
  obtain ⟨n, t, _⟩ : Bytes × Bytes × Unit := v
  exact struct_doc (member_doc (by decide) rfl (member_doc (by decide) rfl rfl))
theorem abiStruct_doc (v : abiStructJTy.Val) : abiStructJTy.marshal true v = .val (abiStructDoc v) := by
  obtain ⟨n, b, fs, _⟩ : Bytes × Bytes × Option (List abiFieldJTy.Val) × Unit := v
  exact struct_doc (member_doc (by decide) rfl (member_doc (by decide) rfl (member_doc (by decide) (list_doc abiField_doc _ _) rfl)))
theorem abiAction_doc (v : abiActionJTy.Val) : abiActionJTy.marshal true v = .val (abiActionDoc v) := by
  obtain ⟨n, t, r, _⟩ : UInt64 × Bytes × Bytes × Unit := v
  exact struct_doc (member_doc (by decide) (name_doc _ _) (member_doc (by decide) rfl (member_doc (by decide) rfl rfl)))
theorem abiTable_doc (v : abiTableJTy.Val) : abiTableJTy.marshal true v = .val (abiTableDoc v) := by
  obtain ⟨n, i, kn, kt, t, _⟩ : UInt64 × Bytes × Option (List Bytes) × Option (List Bytes) × Bytes × Unit := v
  exact struct_doc (member_doc (by decide) (name_doc _ _) (member_doc (by decide) rfl (member_doc (by decide) (strings_doc _ _)
    (member_doc (by decide) (strings_doc _ _) (member_doc (by decide) rfl rfl)))))
theorem abiClause_doc (v : abiClauseJTy.Val) : abiClauseJTy.marshal true v = .val (abiClauseDoc v) := by
  obtain ⟨n, t, _⟩ : Bytes × Bytes × Unit := v
  exact struct_doc (member_doc (by decide) rfl (member_doc (by decide) rfl rfl))
theorem abiErrorMessage_doc (v : abiErrorMessageJTy.Val) : abiErrorMessageJTy.marshal true v = .val (abiErrorMessageDoc v) := by
  obtain ⟨c, m, _⟩ : UInt64 × Bytes × Unit := v
  exact struct_doc (member_doc (by decide) (uint64_doc _ _) (member_doc (by decide) rfl rfl))
theorem abiExtension_doc (v : Option abiExtensionJTy.Val) : (JTy.ptr abiExtensionJTy).marshal true v = .val (abiExtensionDoc v) := by
  match v with
  | none => rfl
  | some v =>
    obtain ⟨t, d, _⟩ : UInt16 × Option Bytes × Unit := v
    exact struct_doc (fs := .cons (asc "type") false (.basic .u16) (.cons (asc "data") false (.text .bytes) .nil)) (member_doc (by decide) rfl (member_doc (by decide) (bytes_doc _ _) rfl))
theorem abiVariant_doc (v : abiVariantJTy.Val) : abiVariantJTy.marshal true v = .val (abiVariantDoc v) := by
  obtain ⟨n, ts, _⟩ : Bytes × Option (List Bytes) × Unit := v
  exact struct_doc (member_doc (by decide) rfl (member_doc (by decide) (strings_doc _ _) rfl))

/-- C70: the text of an ABI definition. error_messages, abi_extensions and variants are left out if empty. -/
theorem C70_document (addr : Bool) (v : abiJTy.Val) : jsonMarshal abiJTy addr v = .val (abiDoc v).print := by
  obtain ⟨ve, ts, ss, as, tbs, cs, es, xs, vs, _⟩ : Bytes × Option (List abiTypeJTy.Val) × Option (List abiStructJTy.Val) × Option (List abiActionJTy.Val) ×
    Option (List abiTableJTy.Val) × Option (List abiClauseJTy.Val) × Option (List abiErrorMessageJTy.Val) × Option (List (Option abiExtensionJTy.Val)) ×
    Option (List abiVariantJTy.Val) × Unit := v
  have h := struct_doc (member_doc (key := asc "version") (t := .string) (addr := addr) (x := ve) (by decide) rfl
    (member_doc (key := asc "types") (by decide) (list_doc abiType_doc _ ts) (member_doc (key := asc "structs") (by decide) (list_doc abiStruct_doc _ ss)
    (member_doc (key := asc "actions") (by decide) (list_doc abiAction_doc _ as) (member_doc (key := asc "tables") (by decide) (list_doc abiTable_doc _ tbs)
    (member_doc (key := asc "ricardian_clauses") (by decide) (list_doc abiClause_doc _ cs)
    (omit_doc (key := asc "error_messages") es (by decide) abiErrorMessage_doc
    (omit_doc (key := asc "abi_extensions") (t := .ptr abiExtensionJTy) xs (by decide) abiExtension_doc
    (omit_doc (key := asc "variants") (fs := .nil) (xs := ()) vs (by decide) abiVariant_doc rfl)))))))))
  unfold jsonMarshal
  refine (congrArg (fun p : Pan JVal => p.bind fun j => .val j.print) h).trans ?_
  simp only [Pan.bind, abiDoc, docStr, JBasic.marshal]
  simp
  rfl

/-- An ABI with a version and a variant. -/
example : jsonMarshal abiJTy false (abiWith (asc "eosio::abi/1.2") none (some [jVariant])) = .val ((JVal.obj [(asc "version", .str (asc "eosio::abi/1.2")), (asc "types", .null),
    (asc "structs", .null), (asc "actions", .null), (asc "tables", .null), (asc "ricardian_clauses", .null), (asc "variants", .arr [abiVariantDoc jVariant])]).print) := by
  rw [C70_document]
  congr 2
end Verif
