import Verif.Spec.JsonOf
import Verif.Props.JsonAbiDoc
/-! # C69, C70: reading actions, transactions and ABI definitions from JSON -/
namespace Verif

theorem listOf_some {α β γ : Type} (f : α → β) (g : γ → α) (h : γ → β) (hf : ∀ x, f (g x) = h x) (xs : List γ) : listOf f (some (xs.map g)) = xs.map h := by
  simp [listOf, hf]
theorem docList_some {α β : Type} (f : α → JVal) (g : β → α) (h : β → JVal) (hf : ∀ x, f (g x) = h x) (xs : List β) : docList f (some (xs.map g)) = .arr (xs.map h) := by
  simp [docList, hf]

/-- Go values of the structs, with no nil slices -/
def PermissionLevel.goValue (p : PermissionLevel) : permissionLevelTy.Val := ((p.actor, p.permission, ()) : UInt64 × UInt64 × Unit)
def Action.goValue (a : Action) : actionTy.Val :=
  ((a.account, a.name, some (a.authorization.map PermissionLevel.goValue), some a.data, ()) : UInt64 × UInt64 × Option (List permissionLevelTy.Val) × Option Bytes × Unit)
def TxExtension.goValue (x : TxExtension) : txExtensionTy.Val := ((x.type, some x.data, ()) : UInt16 × Option Bytes × Unit)
def Transaction.goValue (t : Transaction) : transactionTy.Val :=
  ((t.header.expiration, t.header.refBlockNum, t.header.refBlockPrefix, t.header.maxNetUsageWords, t.header.maxCpuUsageMs, t.header.delaySec,
    some (t.contextFreeActions.map Action.goValue), some (t.actions.map Action.goValue), some (t.extensions.map TxExtension.goValue), ()) :
    UInt32 × UInt16 × UInt32 × UInt64 × UInt8 × UInt64 × Option (List actionTy.Val) × Option (List actionTy.Val) × Option (List txExtensionTy.Val) × Unit)

theorem permissionLevel_of (p : PermissionLevel) : PermissionLevel.ofJson p.goValue = p := rfl
theorem action_of (a : Action) : Action.ofJson a.goValue = a := by
  show Action.mk _ _ (listOf PermissionLevel.ofJson (some (a.authorization.map PermissionLevel.goValue))) _ = a
  rw [listOf_some _ _ id permissionLevel_of, List.map_id]; rfl
theorem txExtension_of (x : TxExtension) : TxExtension.ofJson x.goValue = x := rfl
theorem transaction_of (t : Transaction) : Transaction.ofJson t.goValue = t := by
  show Transaction.mk _ (listOf Action.ofJson (some (t.contextFreeActions.map Action.goValue))) (listOf Action.ofJson (some (t.actions.map Action.goValue)))
    (listOf TxExtension.ofJson (some (t.extensions.map TxExtension.goValue))) = t
  rw [listOf_some _ _ id action_of, listOf_some _ _ id action_of, listOf_some _ _ id txExtension_of, List.map_id, List.map_id, List.map_id]
theorem action_json (a : Action) : actionDoc a.goValue = a.json := by
  show JVal.obj [_, _, (_, docList permissionLevelDoc (some (a.authorization.map PermissionLevel.goValue))), _] = _
  rw [docList_some permissionLevelDoc PermissionLevel.goValue PermissionLevel.json (fun _ => rfl)]; rfl
theorem transaction_json (e : Bytes) (t : Transaction) : transactionDoc e t.goValue = t.json e := by
  show JVal.obj [_, _, _, _, _, _, (_, docList actionDoc (some (t.contextFreeActions.map Action.goValue))), (_, docList actionDoc (some (t.actions.map Action.goValue))),
    (_, docList txExtensionDoc (some (t.extensions.map TxExtension.goValue)))] = _
  rw [docList_some _ _ Action.json action_json, docList_some _ _ Action.json action_json, docList_some txExtensionDoc TxExtension.goValue TxExtension.json (fun _ => rfl)]; rfl

/-- C69: an action can be read from JSON into any variable. -/
theorem C69_read_action (sha : Sha256) (a : Action) (old : actionTy.Val) : ∃ w, jsonUnmarshal sha actionTy old a.json.print = .val (w, .ok) ∧ Action.ofJson w = a := by
  obtain ⟨text, w, h1, h2, h3⟩ := C69_action sha false a.goValue old
  rw [C73_action, action_json] at h1
  cases h1
  exact ⟨w, h2, h3.trans (action_of a)⟩

/-- C69: a transaction can be read from JSON into any variable. -/
theorem C69_read_transaction (sha : Sha256) (t : Transaction) (old : transactionTy.Val) : ∃ e w, UtcText false (t.header.expiration.toNat * 1000) e ∧
    jsonUnmarshal sha transactionTy old (t.json e).print = .val (w, .ok) ∧ Transaction.ofJson w = t := by
  obtain ⟨text, w, h1, h2, h3⟩ := C69_transaction sha false t.goValue old
  obtain ⟨e, he, h4⟩ := C73_transaction false t.goValue
  rw [h4, transaction_json] at h1
  cases h1
  rw [transaction_of] at he h3
  exact ⟨e, w, he, h2, h3⟩

example : (Action.json ⟨6138663577826885632, 0, [⟨0, 6138663577826885632⟩], [1, 255]⟩).print =
    asc "{\"account\":\"eosio\",\"name\":\"\",\"authorization\":[{\"actor\":\"\",\"permission\":\"eosio\"}],\"data\":\"01ff\"}" := by decide +kernel

/-! ## ABI definitions -/

def AbiType.goValue (t : AbiType) : abiTypeJTy.Val := ((t.newTypeName, t.type, ()) : Bytes × Bytes × Unit)
def AbiField.goValue (f : AbiField) : abiFieldJTy.Val := ((f.name, f.type, ()) : Bytes × Bytes × Unit)
def AbiStruct.goValue (s : AbiStruct) : abiStructJTy.Val := ((s.name, s.base, some (s.fields.map AbiField.goValue), ()) : Bytes × Bytes × Option (List abiFieldJTy.Val) × Unit)
def AbiAction.goValue (a : AbiAction) : abiActionJTy.Val := ((a.name, a.type, a.ricardianContract, ()) : UInt64 × Bytes × Bytes × Unit)
def AbiTable.goValue (t : AbiTable) : abiTableJTy.Val :=
  ((t.name, t.indexType, some t.keyNames, some t.keyTypes, t.type, ()) : UInt64 × Bytes × Option (List Bytes) × Option (List Bytes) × Bytes × Unit)
def AbiClause.goValue (c : AbiClause) : abiClauseJTy.Val := ((c.id, c.body, ()) : Bytes × Bytes × Unit)
def AbiErrorMessage.goValue (m : AbiErrorMessage) : abiErrorMessageJTy.Val := ((m.code, m.message, ()) : UInt64 × Bytes × Unit)
def AbiExtension.goValue (x : AbiExtension) : abiExtensionJTy.Val := ((x.type, some x.data, ()) : UInt16 × Option Bytes × Unit)
def AbiVariant.goValue (v : AbiVariant) : abiVariantJTy.Val := ((v.name, some v.types, ()) : Bytes × Option (List Bytes) × Unit)
def Abi.goValue (a : Abi) : abiJTy.Val :=
  ((a.version, some (a.types.map AbiType.goValue), some (a.structs.map AbiStruct.goValue), some (a.actions.map AbiAction.goValue), some (a.tables.map AbiTable.goValue),
    some (a.ricardianClauses.map AbiClause.goValue), some (a.errorMessages.map AbiErrorMessage.goValue), some (a.extensions.map fun x => some x.goValue),
    some (a.variants.map AbiVariant.goValue), ()) :
    Bytes × Option (List abiTypeJTy.Val) × Option (List abiStructJTy.Val) × Option (List abiActionJTy.Val) × Option (List abiTableJTy.Val) × Option (List abiClauseJTy.Val) ×
    Option (List abiErrorMessageJTy.Val) × Option (List (Option abiExtensionJTy.Val)) × Option (List abiVariantJTy.Val) × Unit)

theorem abiStruct_of (s : AbiStruct) : AbiStruct.ofJson s.goValue = s := by
  show AbiStruct.mk _ _ (listOf AbiField.ofJson (some (s.fields.map AbiField.goValue))) = s
  rw [listOf_some AbiField.ofJson AbiField.goValue id (fun _ => rfl), List.map_id]
theorem abiTable_of (t : AbiTable) : AbiTable.ofJson t.goValue = t := by
  show AbiTable.mk _ _ (listOf id (some t.keyNames)) (listOf id (some t.keyTypes)) _ = t
  simp [listOf]
theorem abiVariant_of (v : AbiVariant) : AbiVariant.ofJson v.goValue = v := by
  show AbiVariant.mk _ (listOf id (some v.types)) = v
  simp [listOf]
theorem abi_of (a : Abi) : Abi.ofJson a.goValue = a := by
  show Abi.mk a.version (listOf AbiType.ofJson (some (a.types.map AbiType.goValue))) (listOf AbiStruct.ofJson (some (a.structs.map AbiStruct.goValue)))
    (listOf AbiAction.ofJson (some (a.actions.map AbiAction.goValue))) (listOf AbiTable.ofJson (some (a.tables.map AbiTable.goValue)))
    (listOf AbiClause.ofJson (some (a.ricardianClauses.map AbiClause.goValue))) (listOf AbiErrorMessage.ofJson (some (a.errorMessages.map AbiErrorMessage.goValue)))
    ((((some (a.extensions.map fun x => some x.goValue) : Option (List (Option abiExtensionJTy.Val))).getD []).filterMap id).map AbiExtension.ofJson)
    (listOf AbiVariant.ofJson (some (a.variants.map AbiVariant.goValue))) = a
  rw [listOf_some AbiType.ofJson AbiType.goValue id (fun _ => rfl), listOf_some _ _ id abiStruct_of, listOf_some AbiAction.ofJson AbiAction.goValue id (fun _ => rfl),
    listOf_some _ _ id abiTable_of, listOf_some AbiClause.ofJson AbiClause.goValue id (fun _ => rfl), listOf_some AbiErrorMessage.ofJson AbiErrorMessage.goValue id (fun _ => rfl), listOf_some _ _ id abiVariant_of]
  have : ((((some (a.extensions.map fun x => some x.goValue) : Option (List (Option abiExtensionJTy.Val))).getD []).filterMap id).map AbiExtension.ofJson) = a.extensions := by
    simp only [Option.getD_some]
    induction a.extensions with
    | nil => rfl
    | cons x xs ih => exact congrArg (x :: ·) ih
  simp only [this, List.map_id]

theorem docOmit_some {α β : Type} (key : Bytes) (f : α → JVal) (g : β → α) (h : β → JVal) (hf : ∀ x, f (g x) = h x) (xs : List β) :
    docOmit key f (some (xs.map g)) = unlessEmpty key h xs := by
  cases xs with
  | nil => rfl
  | cons x xs => simp [docOmit, unlessEmpty, hf]
theorem abiStruct_json (s : AbiStruct) : abiStructDoc s.goValue = s.json := by
  show JVal.obj [_, _, (_, docList abiFieldDoc (some (s.fields.map AbiField.goValue)))] = _
  rw [docList_some abiFieldDoc AbiField.goValue AbiField.json (fun _ => rfl)]; rfl
theorem abi_json (a : Abi) : abiDoc a.goValue = a.json := by
  show JVal.obj ([_, (_, docList abiTypeDoc (some (a.types.map AbiType.goValue))), (_, docList abiStructDoc (some (a.structs.map AbiStruct.goValue))),
    (_, docList abiActionDoc (some (a.actions.map AbiAction.goValue))), (_, docList abiTableDoc (some (a.tables.map AbiTable.goValue))),
    (_, docList abiClauseDoc (some (a.ricardianClauses.map AbiClause.goValue)))] ++ docOmit _ abiErrorMessageDoc (some (a.errorMessages.map AbiErrorMessage.goValue)) ++
    docOmit _ abiExtensionDoc (some (a.extensions.map fun x => some x.goValue)) ++ docOmit _ abiVariantDoc (some (a.variants.map AbiVariant.goValue))) = _
  rw [docList_some abiTypeDoc AbiType.goValue AbiType.json (fun _ => rfl), docList_some _ _ AbiStruct.json abiStruct_json, docList_some abiActionDoc AbiAction.goValue AbiAction.json (fun _ => rfl),
    docList_some abiTableDoc AbiTable.goValue AbiTable.json (fun _ => rfl), docList_some abiClauseDoc AbiClause.goValue AbiClause.json (fun _ => rfl), docOmit_some _ abiErrorMessageDoc AbiErrorMessage.goValue AbiErrorMessage.json (fun _ => rfl),
    docOmit_some _ abiExtensionDoc (fun x => some x.goValue) AbiExtension.json (fun _ => rfl), docOmit_some _ abiVariantDoc AbiVariant.goValue AbiVariant.json (fun _ => rfl)]; rfl

theorem good_slice {α : Type} {t : JTy} (g : α → t.Val) (xs : List α) (addr : Bool) (h : ∀ x ∈ xs, t.Good true (g x)) : (JTy.slice t).Good addr (some (xs.map g)) := by
  intro ys hy y hm
  have hy : some (xs.map g) = some ys := hy
  injection hy with hy; subst hy
  obtain ⟨x, hx, rfl⟩ := List.mem_map.mp hm
  exact h x hx
theorem good_strings (xs : List Bytes) (addr : Bool) (h : ∀ x ∈ xs, Utf8Text x) : (JTy.slice .string).Good addr (some xs) := by
  intro ys hy y hm
  have hy : some xs = some ys := hy
  injection hy with hy; subst hy
  exact h y hm
theorem abi_good (a : Abi) (h : ∀ s ∈ a.texts, Utf8Text s) (addr : Bool) : abiJTy.Good addr a.goValue := by
  have e (s : Bytes) (m : s = a.version ∨ (∃ t ∈ a.types, s = t.newTypeName ∨ s = t.type) ∨ (∃ t ∈ a.structs, s = t.name ∨ s = t.base ∨ ∃ f ∈ t.fields, s = f.name ∨ s = f.type) ∨
      (∃ x ∈ a.actions, s = x.type ∨ s = x.ricardianContract) ∨ (∃ t ∈ a.tables, s = t.indexType ∨ s = t.type ∨ s ∈ t.keyNames ∨ s ∈ t.keyTypes) ∨
      (∃ c ∈ a.ricardianClauses, s = c.id ∨ s = c.body) ∨ (∃ m ∈ a.errorMessages, s = m.message) ∨ ∃ v ∈ a.variants, s = v.name ∨ s ∈ v.types) : Utf8Text s := by
    refine h s ?_
    simp only [Abi.texts, List.cons_append, List.mem_cons, List.mem_append, List.mem_flatMap, List.mem_map, List.not_mem_nil, or_false, @eq_comm _ _ s] at m ⊢
    simp only [or_assoc]
    exact m
  have e1 := fun s m => e s (.inr (.inl m))
  have e2 := fun s m => e s (.inr (.inr (.inl m)))
  have e3 := fun s m => e s (.inr (.inr (.inr (.inl m))))
  have e4 := fun s m => e s (.inr (.inr (.inr (.inr (.inl m)))))
  have e5 := fun s m => e s (.inr (.inr (.inr (.inr (.inr (.inl m))))))
  have e6 := fun s m => e s (.inr (.inr (.inr (.inr (.inr (.inr (.inl m)))))))
  have e7 := fun s m => e s (.inr (.inr (.inr (.inr (.inr (.inr (.inr m)))))))
  refine ⟨e _ (.inl rfl), good_slice _ _ _ fun t ht => ⟨e1 _ ⟨t, ht, .inl rfl⟩, e1 _ ⟨t, ht, .inr rfl⟩, trivial⟩,
    good_slice _ _ _ fun s hs => ⟨e2 _ ⟨s, hs, .inl rfl⟩, e2 _ ⟨s, hs, .inr (.inl rfl)⟩,
      good_slice _ _ _ fun f hf => ⟨e2 _ ⟨s, hs, .inr (.inr ⟨f, hf, .inl rfl⟩)⟩, e2 _ ⟨s, hs, .inr (.inr ⟨f, hf, .inr rfl⟩)⟩, trivial⟩, trivial⟩,
    good_slice _ _ _ fun x hx => ⟨⟨trivial, by simp⟩, e3 _ ⟨x, hx, .inl rfl⟩, e3 _ ⟨x, hx, .inr rfl⟩, trivial⟩,
    good_slice _ _ _ fun t ht => ⟨⟨trivial, by simp⟩, e4 _ ⟨t, ht, .inl rfl⟩, good_strings _ _ fun s hs => e4 s ⟨t, ht, .inr (.inr (.inl hs))⟩,
      good_strings _ _ fun s hs => e4 s ⟨t, ht, .inr (.inr (.inr hs))⟩, e4 _ ⟨t, ht, .inr (.inl rfl)⟩, trivial⟩,
    good_slice _ _ _ fun c hc => ⟨e5 _ ⟨c, hc, .inl rfl⟩, e5 _ ⟨c, hc, .inr rfl⟩, trivial⟩, good_slice _ _ _ fun m hm => ⟨trivial, e6 _ ⟨m, hm, rfl⟩, trivial⟩, ?_,
    good_slice _ _ _ fun v hv => ⟨e7 _ ⟨v, hv, .inl rfl⟩, good_strings _ _ fun s hs => e7 s ⟨v, hv, .inr hs⟩, trivial⟩, trivial⟩
  refine good_slice (t := .ptr abiExtensionJTy) (fun x : AbiExtension => some x.goValue) a.extensions addr fun x _ y hy => ?_
  have hy : some x.goValue = some y := hy
  injection hy with hy; subst hy
  exact ⟨⟨trivial, ⟨trivial, by simp⟩, trivial⟩, id⟩

/-- C70: an ABI definition whose strings are UTF-8 can be read from JSON into a new variable. -/
theorem C70_read (sha : Sha256) (a : Abi) (h : ∀ s ∈ a.texts, Utf8Text s) : ∃ w, jsonUnmarshal sha abiJTy abiJTy.zero a.json.print = .val (w, .ok) ∧ Abi.ofJson w = a := by
  obtain ⟨text, w, h1, h2, h3⟩ := C70_abi_partial sha false a.goValue (abi_good a h false)
  rw [C70_document, abi_json] at h1
  cases h1
  exact ⟨w, h2, h3.trans (abi_of a)⟩
example : ∀ s ∈ (Abi.texts { version := asc "eosio::abi/1.1", structs := [⟨asc "a", asc "b", [⟨asc "c", asc "name[]"⟩]⟩] }), Utf8Text s := by
  intro s hs
  refine utf8_asc s ?_
  revert s
  decide +kernel

end Verif
