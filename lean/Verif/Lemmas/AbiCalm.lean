import Verif.Lemmas.Calm
import Verif.Lemmas.AbiStrict
/-! # ABI decoding does not panic on tame input -/
namespace Verif

theorem decBasic_calm {ty : Basic} {read : Dec (ty.Val × Option Err)} (h : read.Calm true) : (decBasic ty read).Calm true := .bind h fun _ => .pure _
theorem decChain_calm (c : ChainTy) : (decChain c).Calm true := .bind (chain_calm c (.inl rfl) _) fun _ => .pure _

theorem decCases_calm : ∀ c ∈ decCases, c.2.Calm true := by
  have b : ∀ ty : Basic, (decBasic ty ty.read).Calm true := fun ty => decBasic_calm (basic_calm ty (.inl rfl))
  simp only [decCases, List.forall_mem_cons, List.not_mem_nil, false_implies, implies_true, and_true]
  exact ⟨b .string, b .bool, b .i8, b .u8, b .i16, b .u16, b .i32, b .u32, b .i64, (.bind (readUint64_safe false).calm fun _ => .pure _), decChain_calm _, decChain_calm _, b .f32, b .f64, decChain_calm _,
    b .int, b .uint, decChain_calm _, decChain_calm _, decChain_calm _, decChain_calm _, decChain_calm _, decChain_calm _, decChain_calm _, decChain_calm _, decChain_calm _, decChain_calm _,
    decChain_calm _, decChain_calm _, decChain_calm _, decChain_calm _⟩

theorem builtin_calm (b : Bytes) : (decodeBuiltin b).Calm true := by
  unfold decodeBuiltin
  split
  · exact .pure _
  · rename_i c hc
    exact decCases_calm c (List.mem_of_find?_eq_some hc)

theorem decodeStruct_calm {rec : Bytes → Dec (AV × Option Err)} (fs : List (Bytes × Bytes)) (h : ∀ f ∈ fs, (rec f.2).Calm true) (vs : List (Bytes × AV)) : (decodeStruct rec fs vs).Calm true := by
  induction fs generalizing vs with
  | nil => exact .pure _
  | cons f fs ih =>
    unfold decodeStruct
    refine .bind (h f (by simp)) fun r => ?_
    obtain ⟨v, e⟩ := r
    cases e with
    | some e => exact .pure _
    | none => exact ih (fun f hf => h f (by simp [hf])) _

/-- The types decodeInner continues with -/
def Resolved.next (ts : Types) (t : Resolved) (n : Bytes) : Prop := t.ref = some n ∨ (∃ f ∈ t.allFields ts, f.2 = n) ∨ ∃ l, t.variant = some l ∧ n ∈ l

theorem decodeInner_calm (ts : Types) {rec : Bytes → Dec (AV × Option Err)} (t : Resolved) (h : ∀ n, t.next ts n → (rec n).Calm true) : (decodeInner ts rec t).Calm true := by
  unfold decodeInner
  split
  · exact h _ (.inl (by assumption))
  · dsimp only
    split
    · exact decodeStruct_calm _ (fun f hf => h _ (.inr (.inl ⟨f, hf, rfl⟩))) _
    · split
      · rename_i l hl
        refine .varuint (fun _ _ => .pure _) fun i hi => ?_
        dsimp only
        split
        · exact .pure _
        · rename_i hc
          rw [goInt_small hi] at hc
          have hi' : i.toNat < l.length := by omega
          rw [List.getElem?_eq_getElem hi']
          refine .bind (h _ (.inr (.inr ⟨l, hl, List.getElem_mem hi'⟩))) fun r => ?_
          obtain ⟨v, e⟩ := r
          cases e <;> exact .pure _
      · exact builtin_calm _

theorem decodeBody_calm (ts : Types) {rec : Bytes → Dec (AV × Option Err)} (t : Resolved) (h : ∀ n, t.next ts n → (rec n).Calm true) : (decodeBody ts rec t).Calm true := by
  unfold decodeBody
  dsimp only
  split
  · refine .varuint (fun _ _ => .pure _) fun l hl => ?_
    refine makeSlice_calm _ _ hl (by decide) _ fun va => .bind (decEach_calm (fun _ => decodeInner_calm ts t h) _) fun r => ?_
    obtain ⟨v, e⟩ := r
    cases e <;> exact .pure _
  · exact .bind (decodeInner_calm ts t h) fun _ => .pure _

theorem decodeTypeF_calm (ts : Types) (hc : ∀ n t, ts.get n = some t → ∀ m, t.next ts m → ∃ t', ts.get m = some t') (fuel : Nat) (n : Bytes) (hn : ∃ t, ts.get n = some t) :
    (decodeTypeF ts fuel n).Calm true := by
  induction fuel generalizing n with
  | zero => exact ⟨fun _ _ _ _ h => nomatch h⟩
  | succ fuel ih =>
    obtain ⟨t, ht⟩ := hn
    have hb := decodeBody_calm ts (rec := decodeTypeF ts fuel) t fun m hm => ih m (hc n t ht m hm)
    unfold decodeTypeF
    rw [ht]
    dsimp only
    split
    · refine .bind (readBool_safe false).calm fun r => ?_
      obtain ⟨p, e⟩ := r
      cases e with
      | some e => exact .pure _
      | none =>
        dsimp only
        split
        · exact hb
        · exact .pure _
    · exact hb

theorem ready_next {a : Abi} {ts : Types} (hr : Ready a ts) {n : Bytes} {t : Resolved} (ht : ts.get n = some t) (m : Bytes) (hm : t.next ts m) : ∃ u, ts.get m = some u := by
  rcases hm with h | ⟨f, hf, rfl⟩ | ⟨l, h, hl⟩
  · exact (hr n t ht).2 m (by unfold Resolved.refs; rw [h]; simp)
  · rcases allFields_cases hr ht with ⟨f', fs, h1, h2⟩ | ⟨_, h⟩
    · rw [h2] at hf
      obtain ⟨g, hg, rfl⟩ := List.mem_map.1 hf
      exact (table_struct hr ht h1).2.2 g hg
    · rw [h] at hf; cases hf
  · exact (hr n t ht).2 m (by unfold Resolved.refs; rw [h]; simp [hl])

end Verif
