import Verif.Model.Codegen
import Verif.Vectors.Lit
/-! # Go source text

The Go spec's division of a text into tokens, with the semicolons that are inserted at line ends, and the statements of Model/Codegen written in Go. Of the model only the data types of the
statements are used. -/
namespace Verif
open Vectors

/-! ## Tokens -/

inductive Tok where
  /-- identifier, keyword or number -/
  | word (w : Bytes)
  /-- operator or punctuation -/
  | op (o : Bytes)
  /-- string literal -/
  | str (s : Bytes)
deriving DecidableEq

/-- Letters, digits and `_`. Simplified: every byte from 128 on belongs to a letter. -/
def wordChar (c : UInt8) : Bool := 48 ≤ c && c ≤ 57 || 65 ≤ c && c ≤ 90 || c = 95 || 97 ≤ c && c ≤ 122 || 128 ≤ c

/-- Go spec, "Operators and punctuation", without `...` -/
def goOps : List Bytes := [
  txt! "+", txt! "++", txt! "+=", txt! "-", txt! "--", txt! "-=", txt! "*", txt! "*=", txt! "/", txt! "/=", txt! "%", txt! "%=", txt! "&", txt! "&&", txt! "&=", txt! "&^", txt! "&^=",
  txt! "|", txt! "||", txt! "|=", txt! "^", txt! "^=", txt! "<", txt! "<=", txt! "<-", txt! "<<", txt! "<<=", txt! ">", txt! ">=", txt! ">>", txt! ">>=", txt! "=", txt! "==", txt! "!", txt! "!=",
  txt! ":", txt! ":=", txt! "~", txt! "(", txt! ")", txt! "[", txt! "]", txt! "{", txt! "}", txt! ",", txt! ";", txt! "."]

/-- Go spec, "Keywords", without break, continue, fallthrough, return -/
def midKeywords : List Bytes := [
  txt! "case", txt! "chan", txt! "const", txt! "default", txt! "defer", txt! "else", txt! "for", txt! "func", txt! "go", txt! "goto", txt! "if", txt! "import", txt! "interface", txt! "map",
  txt! "package", txt! "range", txt! "select", txt! "struct", txt! "switch", txt! "type", txt! "var"]

/-- Go spec, "Semicolons": a line that ends with this token is given a semicolon -/
def Tok.ends : Tok → Bool
  | .word w => w ∉ midKeywords
  | .str _ => true
  | .op o => o ∈ [txt! "++", txt! "--", txt! ")", txt! "]", txt! "}"]

/-- Reading a text byte by byte: between tokens (`semi`: the last one on this line would get a semicolon), inside a token, or stuck -/
inductive LexSt where
  | idle (semi : Bool)
  | word (w : Bytes)
  | op (o : Bytes)
  | str (s : Bytes)
  | bad
deriving DecidableEq

/-- The token that is complete unless it goes on, and whether a line end here gets a semicolon -/
def LexSt.flush : LexSt → List Tok × Bool
  | .idle semi => ([], semi)
  | .word w => ([.word w], (Tok.word w).ends)
  | .op o => ([.op o], (Tok.op o).ends)
  | .str _ => ([], false)
  | .bad => ([], false)

/-- A byte that does not belong to the token before -/
def LexSt.fresh (s : LexSt) (c : UInt8) : List Tok × LexSt :=
  if c = 10 then (s.flush.1 ++ (if s.flush.2 then [.op (txt! ";")] else []), .idle false)
  else if c = 32 || c = 9 || c = 13 then (s.flush.1, .idle s.flush.2)
  else if wordChar c then (s.flush.1, .word [c])
  else if c = 34 then (s.flush.1, .str [])
  else if [c] ∈ goOps then (s.flush.1, .op [c])
  else (s.flush.1, .bad)

/-- Go spec, "Tokens": a token is as long as possible. Simplified: no comments, runes, raw strings and escapes. -/
def LexSt.step (s : LexSt) (c : UInt8) : List Tok × LexSt :=
  match s with
  | .bad => ([], .bad)
  | .str t => if c = 34 then ([.str t], .idle true) else if c = 10 || c = 92 then ([], .bad) else ([], .str (t ++ [c]))
  | .word w => if wordChar c then ([], .word (w ++ [c])) else LexSt.fresh (.word w) c
  | .op o => if o ++ [c] ∈ goOps then ([], .op (o ++ [c])) else LexSt.fresh (.op o) c
  | .idle semi => LexSt.fresh (.idle semi) c

def LexSt.run : LexSt → Bytes → List Tok × LexSt
  | s, [] => ([], s)
  | s, c :: t => ((s.step c).1 ++ ((s.step c).2.run t).1, ((s.step c).2.run t).2)

/-- The tokens of a piece of text in one line -/
def go (t : Bytes) : List Tok := ((LexSt.idle false).run t).1 ++ ((LexSt.idle false).run t).2.flush.1

/-- The tokens of a file; its end counts as the end of a line -/
def goTokens (t : Bytes) : Option (List Tok) :=
  match (LexSt.idle false).run (t ++ [10]) with
  | (ts, .idle _) => some ts
  | _ => none

/-! ## What stands in the text of a name or a type -/

def GoIdent (n : Bytes) : Prop := n ≠ [] ∧ ∀ c ∈ n, wordChar c = true
/-- Words, `.`, `*`, brackets, braces, parentheses, commas and blanks: no line ends or quotes -/
def TypeText (t : Bytes) : Prop := ∀ c ∈ t, wordChar c = true ∨ c ∈ txt! ".*[](){}, "

/-! ## Statements in Go -/

/-- The Encoder and Decoder methods (pkg/abi/encode.go, decode.go) are called Write and Read with this after it. -/
def Method.goName : Method → Bytes
  | .bytes => txt! "Bytes"
  | .basic .bool => txt! "Bool"
  | .basic .string => txt! "String"
  | .basic .u8 => txt! "Uint8"
  | .basic .u16 => txt! "Uint16"
  | .basic .u32 => txt! "Uint32"
  | .basic .u64 => txt! "Uint64"
  | .basic .i8 => txt! "Int8"
  | .basic .i16 => txt! "Int16"
  | .basic .i32 => txt! "Int32"
  | .basic .i64 => txt! "Int64"
  | .basic .f32 => txt! "Float32"
  | .basic .f64 => txt! "Float64"
  | .basic .int => txt! "Varint"
  | .basic .uint => txt! "Varuint"

/-- `v.n`, `(*v.n)`, `v.n[i]`, `(*v.n)[i]` -/
def Ref.source (n : Bytes) (r : Ref) : List Tok :=
  (if r.deref then go (txt! "(*v.") ++ [.word n] ++ go (txt! ")") else go (txt! "v.") ++ [.word n]) ++ if r.index then go (txt! "[i]") else []

/-- `if …; err != nil { return err }` -/
def checked (s : List Tok) : List Tok := go (txt! "if") ++ s ++ go (txt! "; err != nil { return err; };")

/-- In the method MarshalABI of v with the encoder e, for the field n -/
def WStmt.source (n : Bytes) : WStmt → List Tok
  | .write m r => checked (go (txt! "err = e.") ++ [.word (txt! "Write" ++ m.goName)] ++ go (txt! "(") ++ r.source n ++ go (txt! ")"))
  | .marshal r => checked (go (txt! "err =") ++ r.source n ++ go (txt! ".MarshalABI(e)"))
  | .slice deref body => go (txt! "length = len(") ++ (if deref then go (txt! "*") else []) ++ go (txt! "v.") ++ [.word n] ++ go (txt! ");") ++
      checked (go (txt! "err = e.WriteVaruint(uint(length))")) ++ go (txt! "for i := 0; i < length; i++ {") ++ body.source n ++ go (txt! "};")
  | .array k body => go (txt! "for i := 0; i <") ++ go (fmtInt k) ++ go (txt! "; i++ {") ++ body.source n ++ go (txt! "};")
  | .optional isOptional body => go (txt! "exists = v.") ++ [.word n] ++ go (txt! "!= nil;") ++ (if isOptional then checked (go (txt! "err = e.WriteBool(exists)")) else []) ++
      go (txt! "if exists {") ++ body.source n ++ (if isOptional then go (txt! "};") else
        go (txt! "} else { return errors.New(") ++ [.str (txt! "encountered nil for non-optional field: " ++ n)] ++ go (txt! "); };"))

/-- In the method UnmarshalABI of v with the decoder d, for the field n; `type` is its type without the pointer, the brackets and the length -/
def RStmt.source (n type : Bytes) : RStmt → List Tok
  | .read m isPtr index =>
    if isPtr then go (txt! "var tmp") ++ go type ++ go (txt! ";") ++ checked (go (txt! "tmp, err = d.") ++ [.word (txt! "Read" ++ m.goName)] ++ go (txt! "()")) ++
      Ref.source n ⟨false, index⟩ ++ go (txt! "= &tmp;")
    else checked (Ref.source n ⟨false, index⟩ ++ go (txt! ", err = d.") ++ [.word (txt! "Read" ++ m.goName)] ++ go (txt! "()"))
  | .unmarshal r => checked (go (txt! "err =") ++ r.source n ++ go (txt! ".UnmarshalABI(d)"))
  | .slice elem body => checked (go (txt! "length, err = d.ReadVaruint()")) ++ go (txt! "v.") ++ [.word n] ++ go (txt! "= make([]") ++ go elem ++ go (txt! ", length);") ++
      go (txt! "for i := 0; i < int(length); i++ {") ++ body.source n type ++ go (txt! "};")
  | .array k body => go (txt! "for i := 0; i <") ++ go (fmtInt k) ++ go (txt! "; i++ {") ++ body.source n type ++ go (txt! "};")
  | .optional body => checked (go (txt! "exists, err = d.ReadBool()")) ++ go (txt! "if exists {") ++ body.source n type ++ go (txt! "};")

/-- The declared variables, the statements and `return err` -/
def fnBody (d : FnDecls) (lengthType : Bytes) (stmts : List Tok) : List Tok :=
  go (txt! "var err error;") ++ (if d.usesExists then go (txt! "var exists bool;") else []) ++ (if d.usesLength then go (txt! "var length") ++ go lengthType ++ go (txt! ";") else []) ++
    stmts ++ go (txt! "return err;")

def marshalSource (structName : Bytes) (d : FnDecls) (stmts : List Tok) : List Tok :=
  go (txt! "func (v") ++ [.word structName] ++ go (txt! ") MarshalABI(e *abi.Encoder) error {") ++ fnBody d (txt! "int") stmts ++ go (txt! "};")
def unmarshalSource (structName : Bytes) (d : FnDecls) (stmts : List Tok) : List Tok :=
  go (txt! "func (v *") ++ [.word structName] ++ go (txt! ") UnmarshalABI(d *abi.Decoder) error {") ++ fnBody d (txt! "uint") stmts ++ go (txt! "};")

end Verif
