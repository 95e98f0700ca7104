import Verif.Lemmas.JsonRead
import Verif.Props.JsonAbi
/-! # C74: which JSON texts json.Unmarshal accepts, and what it makes of them -/
namespace Verif

/-- C74: reading a text succeeds with a value exactly if the document fits the type and stands for that value (`JTy.Reads`): members in any order and letter case, unknown
ones ignored, fields without a member and null unchanged, no error lost. -/
theorem C74_reads (sha : Sha256) (t : JTy) (old new : t.Val) (text : Bytes) (j : JVal) (hp : jsonParse text = some j) (ht : t.Apart) (hj : j.Apart) :
    jsonUnmarshal sha t old text = .val (new, .ok) ↔ t.Reads sha old j new := by
  unfold jsonUnmarshal
  rw [hp]
  exact reads_iff sha t ht old new j hj

theorem permissionLevel_apart : permissionLevelTy.Apart := ⟨by decide +kernel, trivial, trivial, trivial⟩
theorem action_apart : actionTy.Apart := ⟨by decide +kernel, trivial, trivial, permissionLevel_apart, trivial, trivial⟩
theorem txExtension_apart : txExtensionTy.Apart := ⟨by decide +kernel, trivial, trivial, trivial⟩
theorem transaction_apart : transactionTy.Apart := ⟨by decide +kernel, trivial, trivial, trivial, trivial, trivial, trivial, action_apart, action_apart, txExtension_apart, trivial⟩
theorem abiJTy_apart : abiJTy.Apart :=
  ⟨by decide +kernel, trivial, ⟨by decide +kernel, trivial, trivial, trivial⟩, ⟨by decide +kernel, trivial, trivial, ⟨by decide +kernel, trivial, trivial, trivial⟩, trivial⟩,
    ⟨by decide +kernel, trivial, trivial, trivial, trivial⟩, ⟨by decide +kernel, trivial, trivial, trivial, trivial, trivial, trivial⟩,
    ⟨by decide +kernel, trivial, trivial, trivial⟩, ⟨by decide +kernel, trivial, trivial, trivial⟩, ⟨by decide +kernel, trivial, trivial, trivial⟩,
    ⟨by decide +kernel, trivial, trivial, trivial⟩, trivial⟩

/-- C74: a permission level is read from any text of an object whose members named actor and permission, in any order and letter case, are strings; other members are
ignored. -/
theorem C74_permission (sha : Sha256) (old : permissionLevelTy.Val) (text a p : Bytes) (ms : List (Bytes × JVal)) (hp : jsonParse text = some (.obj ms))
    (hj : (JVal.obj ms).Apart) (ha : memberOf ms (asc "actor") = some (.str a)) (hb : memberOf ms (asc "permission") = some (.str p)) :
    jsonUnmarshal sha permissionLevelTy old text =
      .val (((newName (unquote a), newName (unquote p), ()) : UInt64 × UInt64 × Unit), .ok) := by
  refine (C74_reads sha permissionLevelTy old _ text _ hp permissionLevel_apart hj).mpr (Or.inr ⟨ms, rfl, ?_⟩)
  obtain ⟨x, y, _⟩ : UInt64 × UInt64 × Unit := old
  show (match memberOf ms (asc "actor") with | none => _ | some j => JTy.name.Reads sha x j (newName (unquote a))) ∧
    (match memberOf ms (asc "permission") with | none => _ | some j => JTy.name.Reads sha y j (newName (unquote p))) ∧ True
  rw [ha, hb]
  exact ⟨Or.inr ⟨a, rfl, rfl⟩, Or.inr ⟨p, rfl, rfl⟩, trivial⟩

/-- The document of `{"Permission":"active","extra":null,"actor":"eosio"}` -/
example : memberOf [(asc "Permission", .str (asc "active")), (asc "extra", .null), (asc "actor", .str (asc "eosio"))] (asc "permission") = some (.str (asc "active")) ∧
    (JVal.obj [(asc "Permission", .str (asc "active")), (asc "extra", .null), (asc "actor", .str (asc "eosio"))]).Apart :=
  ⟨by simp only [memberOf_cons]; rw [if_pos (by decide +kernel)], by decide +kernel, trivial, trivial, trivial, trivial⟩

/-- C70 fails over an ABI in use: what `omitempty` leaves out keeps the old content, here the variants. -/
theorem C70_reuse_violated (sha : Sha256) : ∃ text w, jsonMarshal abiJTy false (abiWith [] none none) = .val text ∧
    jsonUnmarshal sha abiJTy (abiWith [] none (some [jVariant])) text = .val (w, .ok) ∧ (Abi.ofJson w).variants.length = 1 ∧
    (Abi.ofJson (abiWith [] none none)).variants = [] := by
  have hm : abiJTy.marshal false (abiWith [] none none) = .val (.obj [(asc "version", .str []), (asc "types", .null), (asc "structs", .null), (asc "actions", .null),
      (asc "tables", .null), (asc "ricardian_clauses", .null)]) := by with_unfolding_all rfl
  refine ⟨_, abiWith [] none (some [jVariant]), by rw [jsonMarshal, hm]; rfl, ?_, rfl, rfl⟩
  unfold jsonUnmarshal
  rw [jsonParse_print _ (marshal_fine abiJTy maxNesting false _ _ (by decide) hm)]
  with_unfolding_all rfl

end Verif
