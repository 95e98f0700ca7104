import Verif.Model.Codegen
/-! C92: how programs end. -/
namespace Verif

/-- Whatever the writer does, the program ends, and if it panics then with a message in S. -/
def Enc.Only {α : Type} (S : String → Prop) : Enc α → Prop
  | .ret _ => True
  | .panic w => S w
  | .diverge => False
  | .write _ k => ∀ e, (k e).Only S

/-- Whatever the reader does, the program ends, and if it panics then with a message in S. -/
def Dec.Only {α : Type} (S : String → Prop) : Dec α → Prop
  | .ret _ => True
  | .panic w => S w
  | .diverge => False
  | .read _ k => ∀ b c e, (k b c e).Only S

/-- The panics of the Go runtime that happen while writing -/
def WritePanic (m : String) : Prop := m = "index out of range" ∨ m = "nil pointer dereference"

/-- The panics of the Go runtime that happen while reading -/
def RuntimePanic (m : String) : Prop := m = "index out of range" ∨ m = "nil pointer dereference" ∨ m = "makeslice: len out of range"

/-- Types with a MarshalABI: those of package chain, and the structs, nested n levels deep, for which code has been generated that compiles -/
def hasMarshal : Nat → Ty → Bool
  | _, .chain _ => true
  | n + 1, .struct fs => fs.marshalCompiles (hasMarshal n)
  | _, _ => false

/-- Types with an UnmarshalABI -/
def hasUnmarshal : Nat → Ty → Bool
  | _, .chain _ => true
  | n + 1, .struct fs => fs.unmarshalCompiles (hasUnmarshal n)
  | _, _ => false

/-- The variable has type u, or there is none when the program gets there. -/
def Place.Has {α : Type} (u : Ty) : Place α → Prop
  | .ill => False
  | .panic w => WritePanic w
  | .at t _ _ => t = u

end Verif
