import Lean
import Verif
/-! Prints, for each property theorem, the project constants it depends on (used by tools/mutate.py). Not part of the build. -/
open Lean
abbrev Graph := Std.HashMap Name (Array Name)
/-- Constants of this project used directly, computed once per constant. -/
def edges (env : Environment) (n : Name) : StateM Graph (Array Name) := do
  if let some a := (← get)[n]? then return a
  let a := match env.find? n with
    | none => #[]
    | some ci => ci.getUsedConstantsAsSet.toArray.filter fun m =>
      match env.getModuleIdxFor? m with
      | some idx => (env.header.moduleNames[idx.toNat]!).getRoot == `Verif
      | none => false
  modify (·.insert n a)
  return a
partial def go (env : Environment) (n : Name) (seen : Std.HashSet Name) : StateM Graph (Std.HashSet Name) := do
  if seen.contains n then return seen
  let mut seen := seen.insert n
  for m in ← edges env n do
    seen ← go env m seen
  return seen
run_cmd do
  let env ← getEnv
  let mut g : Graph := {}
  for (n, _) in env.constants.map₁.toList do
    if let .str (.str .anonymous "Verif") s := n then
      if s.length > 4 && s.startsWith "C" && s.toList[1]!.isDigit && s.toList[2]!.isDigit && (s.toList[3]! == '_' || s.toList[3]!.isDigit && s.toList[4]! == '_') then
        let (st, g') := (go env n {}).run g
        g := g'
        let names := st.toList.map (fun m => "\"" ++ (toString m).replace "\"" "" ++ "\"")
        IO.println ("DEP {\"thm\":\"" ++ s ++ "\",\"deps\":[" ++ ",".intercalate names ++ "]}")
