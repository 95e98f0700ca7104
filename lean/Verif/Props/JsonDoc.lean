import Verif.Lemmas.JsonDoc
import Verif.Props.Json
/-! # C73: what actions and transactions look like in JSON -/
namespace Verif

/-! ## The documents, as nodeos writes them -/

/-- nil is null -/
def docList {α : Type} (f : α → JVal) : Option (List α) → JVal
  | none => .null
  | some xs => .arr (xs.map f)
def docBytes (d : Option Bytes) : JVal := .str (hexEncode (d.getD []))
def docNum (n : Nat) : JVal := .num (fmtNat n)
def permissionLevelDoc : permissionLevelTy.Val → JVal := fun v =>
  let (a, p, _) : UInt64 × UInt64 × Unit := v
  .obj [(asc "actor", .str (Name.string a)), (asc "permission", .str (Name.string p))]
def actionDoc : actionTy.Val → JVal := fun v =>
  let (a, n, au, d, _) : UInt64 × UInt64 × Option (List permissionLevelTy.Val) × Option Bytes × Unit := v
  .obj [(asc "account", .str (Name.string a)), (asc "name", .str (Name.string n)), (asc "authorization", docList permissionLevelDoc au), (asc "data", docBytes d)]
def txExtensionDoc : txExtensionTy.Val → JVal := fun v =>
  let (t, d, _) : UInt16 × Option Bytes × Unit := v
  .obj [(asc "type", docNum t.toNat), (asc "data", docBytes d)]
def transactionDoc (expiration : Bytes) : transactionTy.Val → JVal := fun v =>
  let (_, n, p, w, c, d, cf, ac, ex, _) : UInt32 × UInt16 × UInt32 × UInt64 × UInt8 × UInt64 × Option (List actionTy.Val) × Option (List actionTy.Val) ×
    Option (List txExtensionTy.Val) × Unit := v
  .obj [(asc "expiration", .str expiration), (asc "ref_block_num", docNum n.toNat), (asc "ref_block_prefix", docNum p.toNat), (asc "max_net_usage_words", docNum w.toNat),
    (asc "max_cpu_usage_ms", docNum c.toNat), (asc "delay_sec", docNum d.toNat), (asc "context_free_actions", docList actionDoc cf), (asc "actions", docList actionDoc ac),
    (asc "transaction_extensions", docList txExtensionDoc ex)]

theorem name_doc (addr : Bool) (v : UInt64) : JTy.name.marshal addr v = .val (.str (Name.string v)) :=
  congrArg (fun s => Pan.val (JVal.str s)) (escape_plain (plain_name v))
theorem bytes_doc (addr : Bool) (v : Option Bytes) : (JTy.text .bytes).marshal addr v = .val (docBytes v) :=
  congrArg (fun s => Pan.val (JVal.str s)) (escape_plain (plain_hex (hexEncode_text (v.getD []))))
theorem list_doc {t : JTy} {g : t.Val → JVal} (h : ∀ x, t.marshal true x = .val (g x)) (addr : Bool) (v : Option (List t.Val)) :
    (JTy.slice t).marshal addr v = .val (docList g v) := by
  rw [slice_doc h]; cases v <;> rfl

/-- One more member -/
theorem member_doc {key : Bytes} {t : JTy} {fs : JFields} {addr : Bool} {x : t.Val} {xs : fs.Val} {j : JVal} {js : List (Bytes × JVal)}
    (hk : key.all PlainByte = true) (h1 : t.marshal addr x = .val j) (h2 : fs.marshal addr xs = .val js) :
    (JFields.cons key false t fs).marshal addr ((x, xs) : t.Val × fs.Val) = .val ((key, j) :: js) := by
  show (t.marshal addr x).bind _ = _
  rw [h1, Pan.bind_val]
  show (fs.marshal addr xs).bind _ = _
  rw [h2, Pan.bind_val, escape_plain (List.all_eq_true.mp hk)]
theorem struct_doc {fs : JFields} {addr : Bool} {v : fs.Val} {js : List (Bytes × JVal)} (h : fs.marshal addr v = .val js) : (JTy.struct fs).marshal addr v = .val (.obj js) := by
  show (fs.marshal addr v).bind _ = _
  rw [h]; rfl

theorem permissionLevel_doc (addr : Bool) (v : permissionLevelTy.Val) : permissionLevelTy.marshal addr v = .val (permissionLevelDoc v) := by
  obtain ⟨a, p, _⟩ : UInt64 × UInt64 × Unit := v
  exact struct_doc (member_doc (by decide) (name_doc _ _) (member_doc (by decide) (name_doc _ _) rfl))
theorem action_doc (addr : Bool) (v : actionTy.Val) : actionTy.marshal addr v = .val (actionDoc v) := by
  obtain ⟨a, n, au, d, _⟩ : UInt64 × UInt64 × Option (List permissionLevelTy.Val) × Option Bytes × Unit := v
  exact struct_doc (member_doc (by decide) (name_doc _ _) (member_doc (by decide) (name_doc _ _) (member_doc (by decide) (list_doc (permissionLevel_doc true) _ _)
    (member_doc (by decide) (bytes_doc _ _) rfl))))
theorem txExtension_doc (addr : Bool) (v : txExtensionTy.Val) : txExtensionTy.marshal addr v = .val (txExtensionDoc v) := by
  obtain ⟨t, d, _⟩ : UInt16 × Option Bytes × Unit := v
  exact struct_doc (member_doc (by decide) rfl (member_doc (by decide) (bytes_doc _ _) rfl))

/-- C73: the text of an action. -/
theorem C73_action (addr : Bool) (v : actionTy.Val) : jsonMarshal actionTy addr v = .val (actionDoc v).print := by
  unfold jsonMarshal
  rw [action_doc]; rfl

/-- C73: the text of a transaction; the expiration is in ISO 8601 without fraction or zone. -/
theorem C73_transaction (addr : Bool) (v : transactionTy.Val) : ∃ expiration : Bytes,
    UtcText false ((Transaction.ofJson v).header.expiration.toNat * 1000) expiration ∧ jsonMarshal transactionTy addr v = .val (transactionDoc expiration v).print := by
  obtain ⟨e, n, p, u, c, d, cf, ac, ex, _⟩ : UInt32 × UInt16 × UInt32 × UInt64 × UInt8 × UInt64 × Option (List actionTy.Val) × Option (List actionTy.Val) ×
    Option (List txExtensionTy.Val) × Unit := v
  refine ⟨TimePointSec.string e, C57_sec_string e, ?_⟩
  have h : transactionTy.marshal addr ((e, n, p, u, c, d, cf, ac, ex, ()) : UInt32 × UInt16 × UInt32 × UInt64 × UInt8 × UInt64 × Option (List actionTy.Val) ×
      Option (List actionTy.Val) × Option (List txExtensionTy.Val) × Unit) = _ :=
    struct_doc (member_doc (by decide) (congrArg (fun s => Pan.val (JVal.str s)) (escape_plain (plain_utc (C57_sec_string e)))) (member_doc (by decide) rfl
      (member_doc (by decide) rfl (member_doc (by decide) rfl (member_doc (by decide) rfl (member_doc (by decide) rfl
      (member_doc (by decide) (list_doc (action_doc true) _ _) (member_doc (by decide) (list_doc (action_doc true) _ _)
      (member_doc (by decide) (list_doc (txExtension_doc true) _ _) rfl)))))))))
  unfold jsonMarshal
  exact congrArg (fun p : Pan JVal => p.bind fun j => .val j.print) h

/-- The text of an action -/
example : (actionDoc (((6138663577826885632 : UInt64), (14829575313431724032 : UInt64), (some [((6138663577826885632 : UInt64), (3617214756542218240 : UInt64), ())] : Option (List (UInt64 × UInt64 × Unit))),
      (some [0xca, 0xfe] : Option Bytes), ()) : UInt64 × UInt64 × Option (List (UInt64 × UInt64 × Unit)) × Option Bytes × Unit)).print =
    asc "{\"account\":\"eosio\",\"name\":\"transfer\",\"authorization\":[{\"actor\":\"eosio\",\"permission\":\"active\"}],\"data\":\"cafe\"}" := by decide +kernel

end Verif
