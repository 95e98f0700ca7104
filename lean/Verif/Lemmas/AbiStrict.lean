import Verif.Lemmas.ReflectStrict
import Verif.Lemmas.AbiWire
import Verif.Spec.AbiTerm
/-! # The ABI codec gives up on the first failure -/
namespace Verif

theorem decBasicS (s : Bool) (b : Basic) : (decBasic b b.read).Strict s := map_strict (basic_strict s b) _

theorem decChainS (s : Bool) (c : ChainTy) (hc : s = true ∨ c.Firm) : (decChain c).Strict s := map_strict (chainTy_strict s c hc _) _

theorem decCases_strict (s : Bool) : ∀ c ∈ decCases, c.2.Strict s := by
  have f : ∀ c : ChainTy, c ≠ .permissionLevel → c ≠ .action → c ≠ .transaction → (decChain c).Strict s := fun c h1 h2 h3 => decChainS s c (.inr ⟨h1, h2, h3⟩)
  simp only [decCases, List.forall_mem_cons, List.not_mem_nil, false_implies, implies_true, and_true]
  exact ⟨decBasicS s .string, decBasicS s .bool, decBasicS s .i8, decBasicS s .u8, decBasicS s .i16, decBasicS s .u16, decBasicS s .i32, decBasicS s .u32, decBasicS s .i64,
    map_strict (readUint64_strict s) _, f _ (by decide) (by decide) (by decide), f _ (by decide) (by decide) (by decide), decBasicS s .f32, decBasicS s .f64, f _ (by decide) (by decide) (by decide),
    decBasicS s .int, decBasicS s .uint, f _ (by decide) (by decide) (by decide), f _ (by decide) (by decide) (by decide), f _ (by decide) (by decide) (by decide), f _ (by decide) (by decide) (by decide),
    f _ (by decide) (by decide) (by decide), f _ (by decide) (by decide) (by decide), f _ (by decide) (by decide) (by decide), f _ (by decide) (by decide) (by decide), f _ (by decide) (by decide) (by decide),
    f _ (by decide) (by decide) (by decide), f _ (by decide) (by decide) (by decide), f _ (by decide) (by decide) (by decide), f _ (by decide) (by decide) (by decide), f _ (by decide) (by decide) (by decide)⟩

theorem builtin_strict (s : Bool) (b : Bytes) : (decodeBuiltin b).Strict s := by
  unfold decodeBuiltin
  split
  · exact fun _ _ => trivial
  · rename_i c hc
    exact decCases_strict s c (List.mem_of_find?_eq_some hc)

theorem decodeStruct_strict (s : Bool) (rec : Bytes → Dec (AV × Option Err)) (h : ∀ n, (rec n).Strict s) (fs : List (Bytes × Bytes)) (vs : List (Bytes × AV)) : (decodeStruct rec fs vs).Strict s := by
  intro P hP
  induction fs generalizing vs with
  | nil => trivial
  | cons f fs ih =>
    unfold decodeStruct
    strict_try (h f.2 P hP)
    exact ih _

theorem decodeInner_strict (s : Bool) (ts : Types) (rec : Bytes → Dec (AV × Option Err)) (h : ∀ n, (rec n).Strict s) (t : Resolved) : (decodeInner ts rec t).Strict s := by
  unfold decodeInner
  split
  · exact h _
  · dsimp only
    split
    · exact decodeStruct_strict s rec h _ _
    · split
      · intro P hP
        strict_try (readVaruint_strict s P hP)
        dsimp only
        split
        · trivial
        · split
          · trivial
          · strict_try (h _ P hP)
            trivial
      · exact builtin_strict s _

theorem decodeBody_strict (s : Bool) (ts : Types) (rec : Bytes → Dec (AV × Option Err)) (h : ∀ n, (rec n).Strict s) (t : Resolved) (ht : t.isExtension = false) : (decodeBody ts rec t).Strict s := by
  intro P hP
  unfold decodeBody
  simp only [ht, Bool.false_eq_true, and_false, if_false]
  split
  · strict_try (readVaruint_strict s P hP)
    dsimp only
    unfold makeSlice
    split
    · trivial
    · split
      · trivial
      · strict_try (decEach_strict s _ (fun _ => decodeInner_strict s ts rec h t) _ P hP)
        trivial
  · exact (decodeInner_strict s ts rec h t P hP).bind (fun _ => trivial) (fun _ _ h => h)

theorem decodeTypeF_strict (s : Bool) (ts : Types) (hx : ∀ n t, ts.get n = some t → t.isExtension = false) (fuel : Nat) (n : Bytes) : (decodeTypeF ts fuel n).Strict s := by
  induction fuel generalizing n with
  | zero => exact fun _ _ => trivial
  | succ fuel ih =>
    unfold decodeTypeF
    split
    · exact fun _ _ => trivial
    · rename_i t ht
      split
      · intro P hP
        strict_try (readBool_strict s P hP)
        dsimp only
        split
        · exact decodeBody_strict s ts _ ih t (hx _ _ ht) P hP
        · trivial
      · exact decodeBody_strict s ts _ ih t (hx _ _ ht)

/-! ## Encoding -/

theorem encodeBuiltin_strict (b : Bytes) (v : AV) : (encodeBuiltin b v).Strict := by
  have hb : ∀ ty : Basic, ∀ v p, encBasic ty ty.write v = some p → p.Strict := by
    intro ty v p h
    unfold encBasic at h
    obtain ⟨x, _, rfl⟩ := Option.map_eq_some_iff.1 h
    exact basicWrite_strict ty x
  have hc : ∀ c : ChainTy, c ≠ .permissionLevel → c ≠ .action → c ≠ .transaction → ∀ v p, encChain c v = some p → p.Strict := by
    intro c h1 h2 h3 v p h
    unfold encChain at h
    obtain ⟨x, _, rfl⟩ := Option.map_eq_some_iff.1 h
    exact chainWrite_strict c ⟨h1, h2, h3⟩ x
  have key : ∀ c ∈ encCases, ∀ v p, c.2 v = some p → p.Strict := by
    simp only [encCases, List.forall_mem_cons, List.not_mem_nil, false_implies, implies_true, and_true]
    refine ⟨hb .bool, hb .string, hb .u8, hb .u16, hb .u32, ?_, hc _ (by decide) (by decide) (by decide), hb .i8, hb .i16, hb .i32, hb .i64, hc _ (by decide) (by decide) (by decide), hb .f32, hb .f64,
      hc _ (by decide) (by decide) (by decide), hb .uint, hb .int, ?_, hc _ (by decide) (by decide) (by decide), hc _ (by decide) (by decide) (by decide), hc _ (by decide) (by decide) (by decide),
      hc _ (by decide) (by decide) (by decide), hc _ (by decide) (by decide) (by decide), hc _ (by decide) (by decide) (by decide), hc _ (by decide) (by decide) (by decide),
      hc _ (by decide) (by decide) (by decide), hc _ (by decide) (by decide) (by decide), hc _ (by decide) (by decide) (by decide), hc _ (by decide) (by decide) (by decide),
      hc _ (by decide) (by decide) (by decide), hc _ (by decide) (by decide) (by decide), hc _ (by decide) (by decide) (by decide)⟩
    · intro v p h
      split at h
      · cases h; exact writeUint64_strict _
      · obtain ⟨x, _, rfl⟩ := Option.map_eq_some_iff.1 h
        exact writeInt64_strict _
    · intro v p h
      obtain ⟨x, _, rfl⟩ := Option.map_eq_some_iff.1 h
      exact writeBytes_strict _
  unfold encodeBuiltin
  split
  · trivial
  · rename_i c hf
    split
    · trivial
    · rename_i p hp
      exact key c (List.mem_of_find?_eq_some hf) v p hp

theorem encodeInner_strict (ts : Types) (rec : Bytes → AV → Enc (Option Err)) (h : ∀ n v, (rec n v).Strict) (t : Resolved) (v : AV) : (encodeInner ts rec t v).Strict := by
  unfold encodeInner
  split
  · exact h _ _
  · dsimp only
    split
    · split
      · exact encEach_strict _ (fun _ => h _ _) _
      · trivial
    · split
      · split
        · split
          · split
            · trivial
            · split
              · trivial
              · exact (writeVaruint_strict _).seq (h _ _)
          · trivial
        · trivial
      · exact encodeBuiltin_strict _ _

theorem encodeBody_strict (ts : Types) (rec : Bytes → AV → Enc (Option Err)) (h : ∀ n v, (rec n v).Strict) (t : Resolved) (v : AV) : (encodeBody ts rec t v).Strict := by
  unfold encodeBody
  split
  · split
    · exact (writeVaruint_strict _).seq (encEach_strict _ (encodeInner_strict ts rec h t) _)
    · trivial
  · exact encodeInner_strict ts rec h t v

theorem encodeTypeF_strict (ts : Types) (hx : ∀ n t, ts.get n = some t → t.isOptional = false) (fuel : Nat) (n : Bytes) (v : AV) : (encodeTypeF ts fuel n v).Strict := by
  induction fuel generalizing n v with
  | zero => trivial
  | succ fuel ih =>
    unfold encodeTypeF
    split
    · trivial
    · rename_i t ht
      simp only [hx _ _ ht, Bool.false_eq_true, if_false]
      split
      · trivial
      · exact encodeBody_strict ts _ ih t v

end Verif
