import Verif.Go.Strconv
/-! # stdlib text/template, as far as pkg/codegen uses it

Text with actions `{{…}}`: a field, `if`, `else`, `end`, `range`, with `and`, `or`, `not`, and the trim markers `{{- ` and ` -}}`. Left out: comments, strings in actions, variables,
pipes, methods, any other function. -/
namespace Verif

/-- text/template/parse/lex.go `isSpace` -/
def tplSpace (c : UInt8) : Bool := c = 32 || c = 9 || c = 13 || c = 10

/-- What stands in an action (text/template/parse/lex.go) -/
inductive Piece where
  | text (t : Bytes)
  | action (t : Bytes)
deriving DecidableEq

/-- text/template/parse/lex.go `lexText`, `lexInsideAction`: up to the next delimiter; `none` if an action is not closed -/
def tplPieces : (inside : Bool) → (acc : Bytes) → Bytes → Option (List Piece)
  | false, acc, 123 :: 123 :: s => (tplPieces true [] s).map (.text acc.reverse :: ·)
  | true, acc, 125 :: 125 :: s => (tplPieces false [] s).map (.action acc.reverse :: ·)
  | inside, acc, c :: s => tplPieces inside (c :: acc) s
  | false, acc, [] => some [.text acc.reverse]
  | true, _, [] => none

/-- text/template/parse/lex.go `hasLeftTrimMarker`, on what stands after `{{` -/
def trimsLeft : List Piece → Bool
  | .action (45 :: c :: _) :: _ => tplSpace c
  | _ => false
/-- text/template/parse/lex.go `hasRightTrimMarker`, on what stands before `}}` -/
def trimsRight (t : Bytes) : Bool :=
  match t.reverse with
  | 45 :: c :: _ => tplSpace c
  | _ => false

/-- text/template/parse/lex.go `lexText`, `lexRightDelim`: white space beside the trim markers is dropped. `trim`: the action before was closed by ` -}}`. -/
def tplTrim : (trim : Bool) → List Piece → List Piece
  | _, [] => []
  | trim, .text t :: ps =>
    let t := if trim then t.dropWhile tplSpace else t
    let t := if trimsLeft ps then (t.reverse.dropWhile tplSpace).reverse else t
    .text t :: tplTrim false ps
  | _, .action t :: ps => .action t :: tplTrim (trimsRight t) ps

/-- text/template/parse/lex.go `lexInsideAction`: words and parentheses; the trim markers are words of their own -/
def tplWords : (acc : Bytes) → Bytes → List Bytes
  | acc, [] => if acc = [] then [] else [acc.reverse]
  | acc, c :: s =>
    let word := if acc = [] then [] else [acc.reverse]
    if tplSpace c then word ++ tplWords [] s
    else if c = 40 || c = 41 then word ++ [c] :: tplWords [] s
    else tplWords (c :: acc) s

/-- Operands and calls (text/template/parse/node.go) -/
inductive TExpr where
  | field (name : Bytes)
  | not (a : TExpr)
  | and (a b : TExpr)
  | or (a b : TExpr)
deriving DecidableEq

mutual
/-- text/template/parse/parse.go `term`, at most n levels deep -/
def tplOperand : (n : Nat) → List Bytes → Option (TExpr × List Bytes)
  | 0, _ => none
  | _, [] => none
  | n + 1, w :: ws =>
    if w = [40] then
      match tplCommand n ws with
      | some (e, w' :: r) => if w' = [41] then some (e, r) else none
      | _ => none
    else
      match w with
      | 46 :: f => some (.field f, ws)
      | _ => none
/-- text/template/parse/parse.go `command`. Simplified: `and` and `or` have two arguments. -/
def tplCommand : (n : Nat) → List Bytes → Option (TExpr × List Bytes)
  | 0, _ => none
  | _, [] => none
  | n + 1, w :: ws =>
    if w = asc "not" then do
      let (a, ws) ← tplOperand n ws
      pure (.not a, ws)
    else if w = asc "and" then do
      let (a, ws) ← tplOperand n ws
      let (b, ws) ← tplOperand n ws
      pure (.and a b, ws)
    else if w = asc "or" then do
      let (a, ws) ← tplOperand n ws
      let (b, ws) ← tplOperand n ws
      pure (.or a b, ws)
    else tplOperand n (w :: ws)
end

/-- text/template/parse/parse.go `pipeline` of one command -/
def tplExpr (ws : List Bytes) : Option TExpr :=
  match tplCommand (2 * ws.length + 2) ws with
  | some (e, []) => some e
  | _ => none

/-- A text or an action -/
inductive TItem where
  | text (t : Bytes)
  | show (e : TExpr)
  | if (e : TExpr)
  | range (e : TExpr)
  | else
  | end
deriving DecidableEq

/-- text/template/parse/parse.go `action` -/
def tplItem : Piece → Option TItem
  | .text t => some (.text t)
  | .action t =>
    match (tplWords [] t).filter (· ≠ asc "-") with
    | w :: ws =>
      if w = asc "if" then (tplExpr ws).map .if
      else if w = asc "range" then (tplExpr ws).map .range
      else if w = asc "else" then if ws = [] then some .else else none
      else if w = asc "end" then if ws = [] then some .end else none
      else (tplExpr (w :: ws)).map .show
    | [] => none

/-- A parsed template (text/template/parse/node.go): a node and what follows it -/
inductive TNode where
  | done
  | text (t : Bytes) (k : TNode)
  | show (e : TExpr) (k : TNode)
  | cond (e : TExpr) (yes no k : TNode)
  | range (e : TExpr) (body k : TNode)
deriving DecidableEq

/-- text/template/parse/parse.go `parse`, `itemList`, from the last item to the first: the nodes so far, and for every `end` that is still without its beginning what follows it and what
stands after `else`. -/
def tplTree : List TItem → Option (TNode × List (TNode × Option TNode))
  | [] => some (.done, [])
  | i :: is => do
    let (cur, stack) ← tplTree is
    match i, stack with
    | .text t, _ => pure (.text t cur, stack)
    | .show e, _ => pure (.show e cur, stack)
    | .end, _ => pure (.done, (cur, none) :: stack)
    | .else, (k, none) :: stack => pure (.done, (k, some cur) :: stack)
    | .if e, (k, no) :: stack => pure (.cond e cur (no.getD .done) k, stack)
    | .range e, (k, none) :: stack => pure (.range e cur k, stack)
    | _, _ => none

/-- stdlib `template.New("").Parse(s)`; `none` is an error -/
def parseTemplate (s : Bytes) : Option TNode := do
  let ps ← tplPieces false [] s
  let is ← (tplTrim false ps).mapM tplItem
  match ← tplTree is with
  | (t, []) => pure t
  | _ => none

/-- Values in a template: records are lists of fields with their names -/
inductive TVal where
  | str (s : Bytes)
  | bool (b : Bool)
  | int (i : Int)
  | list (l : List (List (Bytes × TVal)))

/-- text/template/exec.go `IsTrue` -/
def TVal.truth : TVal → Bool
  | .str s => s ≠ []
  | .bool b => b
  | .int i => i ≠ 0
  | .list l => !l.isEmpty

/-- text/template/exec.go `evalPipeline`, funcs.go `and`, `or`, `not`; `none` if there is no such field -/
def TExpr.eval (dot : List (Bytes × TVal)) : TExpr → Option TVal
  | .field f => dot.lookup f
  | .not a => (a.eval dot).map fun a => .bool !a.truth
  | .and a b => do
    let a ← a.eval dot
    if a.truth then b.eval dot else pure a
  | .or a b => do
    let a ← a.eval dot
    if a.truth then pure a else b.eval dot

/-- text/template/exec.go `printValue`; lists are not printed here -/
def TVal.print : TVal → Option Bytes
  | .str s => some s
  | .bool b => some (if b then asc "true" else asc "false")
  | .int i => some (fmtInt i)
  | .list _ => none

/-- text/template/exec.go `walk`; `none` is an error -/
def TNode.exec : TNode → List (Bytes × TVal) → Option Bytes
  | .done, _ => some []
  | .text t k, dot => do
    let r ← k.exec dot
    pure (t ++ r)
  | .show e k, dot => do
    let v ← e.eval dot
    let s ← v.print
    let r ← k.exec dot
    pure (s ++ r)
  | .cond e yes no k, dot => do
    let v ← e.eval dot
    let s ← if v.truth then yes.exec dot else no.exec dot
    let r ← k.exec dot
    pure (s ++ r)
  | .range e body k, dot => do
    match ← e.eval dot with
    | .list l =>
      let ss ← l.mapM fun d => body.exec d
      let r ← k.exec dot
      pure (ss.flatten ++ r)
    | _ => none

end Verif
