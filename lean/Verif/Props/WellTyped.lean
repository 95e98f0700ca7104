import Verif.Lemmas.WellTypedCode
/-! # C92: how generated code and the methods of package chain can end

Code that the compiler accepts never does what it would have to prevent (`illTyped`): the rules of Model/Codegen are sound for what the statements do. -/
namespace Verif

/-- MarshalABI of every type of package chain, with any value and any writer: returns, or a runtime panic -/
theorem C92_chain_marshal (c : ChainTy) (v : c.Val) (w : Nat → WEv) : (c.marshal v).runW w ≠ .diverge ∧ ∀ m, (c.marshal v).runW w = .panic m → WritePanic m :=
  (only_chain_marshal c v).runW w

/-- UnmarshalABI of every type of package chain, into any value and from any reader -/
theorem C92_chain_unmarshal (c : ChainTy) (v : c.Val) (r : Reader) : (c.unmarshal v).runR r ≠ .diverge ∧ ∀ m, (c.unmarshal v).runR r = .panic m → RuntimePanic m :=
  (only_chain_unmarshal c v).runR r

/-- Expressions: the type found is that of the variable they stand for, and one is found for every expression that can stand for a variable. -/
theorem C92_ref (r : Ref) (i : Nat) (t : Ty) (v : t.Val) (u : Ty) :
    (r.type t = some u → (r.place i t v).Has u) ∧ ∀ x put, r.place i t v = .at u x put → r.type t = some u := by
  obtain ⟨h1, h2⟩ := place_has r i t v
  refine ⟨h1 u, fun x put e => ?_⟩
  cases h : r.type t with
  | none => exact absurd e (h2 h _ _ _)
  | some u' =>
    have := h1 u' h
    rw [e] at this
    exact congrArg some this.symm

/-- A statement of MarshalABI that compiles, be it one the generator makes or not, with methods that can only end in such ways -/
theorem C92_write {has : Ty → Bool} {M : Methods} (hM : ∀ u, has u = true → ∃ m, M.marshal u = some m ∧ ∀ v, (m v).Only WritePanic) (t : Ty) (s : WStmt) (h : s.typed has t = true) (i : Nat) (v : t.Val) (w : Nat → WEv) :
    (s.run M i t v).runW w ≠ .diverge ∧ ∀ m, (s.run M i t v).runW w = .panic m → WritePanic m :=
  (write_only hM t s h v i).runW w

/-- A statement of UnmarshalABI that compiles -/
theorem C92_read {has : Ty → Bool} {M : Methods} (hM : ∀ u, has u = true → ∃ m, M.unmarshal u = some m ∧ ∀ v, (m v).Only RuntimePanic) (t : Ty) (s : RStmt) (h : s.typed has t = true) (i : Nat) (v : t.Val) (r : Reader) :
    (s.run M i t v).runR r ≠ .diverge ∧ ∀ m, (s.run M i t v).runR r = .panic m → RuntimePanic m :=
  (read_only hM t s h i v).runR r

/-- The generated MarshalABI of a struct, if it compiles, with any value and any writer -/
theorem C92_marshal (n : Nat) (fs : Fields) (h : fs.marshalCompiles (hasMarshal n) = true) (v : fs.Val) (w : Nat → WEv) :
    (runMarshal (generated n) fs v).runW w ≠ .diverge ∧ ∀ m, (runMarshal (generated n) fs v).runW w = .panic m → WritePanic m :=
  (marshal_only (generated_marshal_only n) fs (marshalCompiles_typed h) v).runW w

/-- The generated UnmarshalABI of a struct, if it compiles, into any value and from any reader -/
theorem C92_unmarshal (n : Nat) (fs : Fields) (h : fs.unmarshalCompiles (hasUnmarshal n) = true) (v : fs.Val) (r : Reader) :
    (runUnmarshal (generated n) fs v).runR r ≠ .diverge ∧ ∀ m, (runUnmarshal (generated n) fs v).runR r = .panic m → RuntimePanic m :=
  (unmarshal_only (generated_unmarshal_only n) fs (unmarshalCompiles_typed h) v).runR r

/-- What the compiler has to prevent is none of these panics. -/
theorem C92_illTyped : ¬ WritePanic illTyped ∧ ¬ RuntimePanic illTyped := by
  constructor <;> simp [WritePanic, RuntimePanic, illTyped]

/-! ## Examples -/

/-- struct { A uint64; B []chain.Name; C *chain.Asset } -/
def wellSample : Fields := .cons .exported .none (.basic .u64) (.cons .exported .none (.slice (.chain .name)) (.cons .exported .none (.ptr (.chain .asset)) .nil))
example : wellSample.marshalCompiles (hasMarshal 0) = true := by decide +kernel
example : wellSample.unmarshalCompiles (hasUnmarshal 0) = true := by decide +kernel
/-- A struct of which fields are structs with generated code -/
example : (Fields.cons .exported .none (.struct wellSample) .nil).unmarshalCompiles (hasUnmarshal 1) = true := by decide +kernel
/-- Panics that happen: an element that is nil, a number of 2^28 -/
example : (runMarshal (generated 0) (.cons .exported .none (.slice (.ptr (.chain .name))) .nil) ((some [none] : Option (List (Option UInt64))), ())).runW (fun _ => .ok) = .panic "nil pointer dereference" := by rfl
example : (ChainTy.marshal .transactionHeader (⟨0, 0, 0, 2 ^ 28, 0, 0⟩ : TxHeader)).runW (fun _ => .ok) = .panic "index out of range" := by rfl
/-- Statements the compiler rejects do something else. -/
example : (WStmt.write (.basic .u8) ⟨false, false⟩).typed (fun _ => false) (.basic .u16) = false ∧
    (WStmt.run (generated 0) (.write (.basic .u8) ⟨false, false⟩) 0 (.basic .u16) (7 : UInt16)).runW (fun _ => .ok) = .panic illTyped := ⟨rfl, rfl⟩

end Verif
