import Verif.Go.Utf8
import Verif.Go.Strconv
import Verif.Go.Hex
/-! # Go `encoding/json` (standard library): documents, string literals, the text of a document

The typed part (how Go values become documents and back) is in Model/Json.lean. -/
namespace Verif

/-- A JSON document. Numbers and strings are kept as they are written (strings without the quotes). -/
inductive JVal where
  | null
  | bool (b : Bool)
  | num (lit : Bytes)
  | str (lit : Bytes)
  | arr (xs : List JVal)
  | obj (ms : List (Bytes × JVal))

/-! ## String literals -/

/-- stdlib utf8.EncodeRune -/
def utf8Encode (r : Nat) : Bytes :=
  if r < 0x80 then [r.toUInt8]
  else if r < 0x800 then [(0xC0 + r / 64).toUInt8, (0x80 + r % 64).toUInt8]
  else if 0x10FFFF < r ∨ (0xD800 ≤ r ∧ r < 0xE000) then [0xEF, 0xBF, 0xBD]
  else if r < 0x10000 then [(0xE0 + r / 4096).toUInt8, (0x80 + r / 64 % 64).toUInt8, (0x80 + r % 64).toUInt8]
  else [(0xF0 + r / 262144).toUInt8, (0x80 + r / 4096 % 64).toUInt8, (0x80 + r / 64 % 64).toUInt8, (0x80 + r % 64).toUInt8]

/-- Since Go 1.22 the bytes 8 and 12 are written as `\b` and `\f`, before as `\u0008` and `\u000c`. No theorem depends on the choice. -/
opaque goShortEscapes : Bool

/-- `\u` and four digits -/
def uEscape (r : Nat) : Bytes := [92, 117, hexDigit (r / 4096 % 16), hexDigit (r / 256 % 16), hexDigit (r / 16 % 16), hexDigit (r % 16)]

/-- stdlib json.appendString (encodeState.string) for one byte below 128, with HTML escaping as in json.Marshal -/
def escByte (b : UInt8) : Bytes :=
  if b = 34 ∨ b = 92 then [92, b]
  else if b = 10 then [92, 110]
  else if b = 13 then [92, 114]
  else if b = 9 then [92, 116]
  else if b = 8 ∧ goShortEscapes then [92, 98]
  else if b = 12 ∧ goShortEscapes then [92, 102]
  else if b < 32 ∨ b = 60 ∨ b = 62 ∨ b = 38 then uEscape b.toNat
  else [b]

/-- The loop of json.appendString; `fuel` is the number of bytes left -/
def escAux : (fuel : Nat) → Bytes → Bytes
  | 0, _ => []
  | _, [] => []
  | f + 1, b :: t =>
    if b < 0x80 then escByte b ++ escAux f t
    else
      let d := decodeRune (b :: t)
      if d = runeError then uEscape 0xFFFD ++ escAux f t
      else if d.1 = 0x2028 ∨ d.1 = 0x2029 then uEscape d.1 ++ escAux f ((b :: t).drop d.2)
      else (b :: t).take d.2 ++ escAux f ((b :: t).drop d.2)

/-- The literal json.Marshal writes for a string, without the quotes -/
def escapeStr (s : Bytes) : Bytes := escAux s.length s

/-- stdlib json.getu4, after `\u` -/
def getu4 : Bytes → Option Nat
  | a :: b :: c :: d :: _ =>
    match fromHexChar a, fromHexChar b, fromHexChar c, fromHexChar d with
    | some a, some b, some c, some d => some (a * 4096 + b * 256 + c * 16 + d)
    | _, _, _, _ => none
  | _ => none

/-- stdlib utf16.IsSurrogate, utf16.DecodeRune -/
def isSurrogate (r : Nat) : Bool := 0xD800 ≤ r && r < 0xE000
/-- stdlib utf16.DecodeRune: the rune of two surrogates -/
def surrogatePair (a b : Nat) : Option Nat :=
  if 0xD800 ≤ a ∧ a < 0xDC00 ∧ 0xDC00 ≤ b ∧ b < 0xE000 then some ((a - 0xD800) * 1024 + (b - 0xDC00) + 0x10000) else none

/-- json.getu4 of the rest of the literal, which must go on with `\u` -/
def nextU4 : Bytes → Option Nat
  | 92 :: 117 :: t => getu4 t
  | _ => none

/-- The byte meant by a backslash and the letter -/
def unescape (e : UInt8) : UInt8 :=
  if e = 98 then 8 else if e = 102 then 12 else if e = 110 then 10 else if e = 114 then 13 else if e = 116 then 9 else e

/-- The loop of json.unquoteBytes on a literal the scanner has accepted; `fuel` is the number of bytes left -/
def unqAux : (fuel : Nat) → Bytes → Bytes
  | 0, _ => []
  | _, [] => []
  | f + 1, c :: t =>
    if c = 92 then
      match t with
      | [] => []
      | e :: t =>
        if e = 117 then
          match getu4 t with
          | none => []
          | some r =>
            if isSurrogate r then
              match (nextU4 (t.drop 4)).bind (surrogatePair r) with
              | some r => utf8Encode r ++ unqAux f (t.drop 10)
              | none => utf8Encode 0xFFFD ++ unqAux f (t.drop 4)
            else utf8Encode r ++ unqAux f (t.drop 4)
        else unescape e :: unqAux f t
    else if c < 0x80 then c :: unqAux f t
    else utf8Encode (decodeRune (c :: t)).1 ++ unqAux f ((c :: t).drop (decodeRune (c :: t)).2)

/-- stdlib json.unquote: the string a literal stands for -/
def unquote (lit : Bytes) : Bytes := unqAux lit.length lit

/-! ## Text -/

mutual
/-- Compact text of a document, as json.Marshal writes it -/
def JVal.print : JVal → Bytes
  | .null => asc "null"
  | .bool b => if b then asc "true" else asc "false"
  | .num l => l
  | .str l => 34 :: (l ++ [34])
  | .arr xs => 91 :: (printElems xs ++ [93])
  | .obj ms => 123 :: (printMembers ms ++ [125])
/-- Elements of an array, as json.Marshal writes them -/
def printElems : List JVal → Bytes
  | [] => []
  | x :: xs => x.print ++ printMore xs
/-- Further elements, each after a comma -/
def printMore : List JVal → Bytes
  | [] => []
  | x :: xs => 44 :: (x.print ++ printMore xs)
/-- Members of an object, as json.Marshal writes them -/
def printMembers : List (Bytes × JVal) → Bytes
  | [] => []
  | (k, x) :: ms => 34 :: (k ++ 34 :: 58 :: (x.print ++ printMoreMembers ms))
/-- Further members, each after a comma -/
def printMoreMembers : List (Bytes × JVal) → Bytes
  | [] => []
  | (k, x) :: ms => 44 :: 34 :: (k ++ 34 :: 58 :: (x.print ++ printMoreMembers ms))
end

/-- stdlib json.isSpace -/
def isSpace (c : UInt8) : Bool := c == 32 || c == 9 || c == 10 || c == 13
/-- White space skipped by the scanner (json.stateBeginValue and others) -/
def skipSpace : Bytes → Bytes
  | [] => []
  | c :: t => if isSpace c then skipSpace t else c :: t

/-- The letters that may follow a backslash, other than `u` -/
def isEscape (e : UInt8) : Bool := e == 98 || e == 102 || e == 110 || e == 114 || e == 116 || e == 92 || e == 47 || e == 34

/-- A string literal after the opening quote: its content and what follows the closing quote -/
def scanStr : Bytes → Option (Bytes × Bytes)
  | [] => none
  | c :: t =>
    if c = 34 then some ([], t)
    else if c < 32 then none
    else if c = 92 then
      match t with
      | [] => none
      | e :: t =>
        if isEscape e then (scanStr t).map fun p => (92 :: e :: p.1, p.2)
        else if e = 117 then
          match t with
          | h1 :: h2 :: h3 :: h4 :: t =>
            if (getu4 [h1, h2, h3, h4]).isSome then (scanStr t).map fun p => (92 :: 117 :: h1 :: h2 :: h3 :: h4 :: p.1, p.2) else none
          | _ => none
        else none
    else (scanStr t).map fun p => (c :: p.1, p.2)

/-- The digits in front and the rest -/
def spanDigits : Bytes → Bytes × Bytes
  | [] => ([], [])
  | c :: t => if isDigit c then let p := spanDigits t; (c :: p.1, p.2) else ([], c :: t)

/-- A number's exponent -/
def scanExp (bs : Bytes) : Option (Bytes × Bytes) := match bs with
  | e :: t =>
    if e = 101 ∨ e = 69 then
      let (sign, t) := match t with
        | s :: t' => if s = 43 ∨ s = 45 then ([s], t') else ([], t)
        | [] => ([], [])
      let (ds, r) := spanDigits t
      if ds = [] then none else some (e :: (sign ++ ds), r)
    else some ([], bs)
  | [] => some ([], [])
/-- A number's fraction and exponent -/
def scanFrac (bs : Bytes) : Option (Bytes × Bytes) := match bs with
  | 46 :: t =>
    let (ds, r) := spanDigits t
    if ds = [] then none else (scanExp r).map fun p => (46 :: (ds ++ p.1), p.2)
  | _ => scanExp bs
/-- A number without sign -/
def scanUnsigned (bs : Bytes) : Option (Bytes × Bytes) := match bs with
  | 48 :: t => (scanFrac t).map fun p => (48 :: p.1, p.2)
  | _ =>
    let (ds, r) := spanDigits bs
    if ds = [] then none else (scanFrac r).map fun p => (ds ++ p.1, p.2)
/-- A number -/
def scanNum (bs : Bytes) : Option (Bytes × Bytes) := match bs with
  | 45 :: t => (scanUnsigned t).map fun p => (45 :: p.1, p.2)
  | _ => scanUnsigned bs

/-- true, false or null, after the first letter -/
def scanWord (word : Bytes) (v : JVal) (bs : Bytes) : Option (JVal × Bytes) := if word.isPrefixOf bs then some (v, bs.drop word.length) else none

/-- stdlib json.maxNestingDepth -/
def maxNesting : Nat := 10000

mutual
/-- The language of stdlib json's scanner: one value, and what follows it. `depth` counts the open brackets. -/
def parseVal : (fuel depth : Nat) → Bytes → Option (JVal × Bytes)
  | 0, _, _ => none
  | f + 1, d, bs =>
    match skipSpace bs with
    | [] => none
    | c :: t =>
      if c = 34 then (scanStr t).map fun p => (.str p.1, p.2)
      else if c = 91 then
        if d ≥ maxNesting then none
        else match skipSpace t with
          | 93 :: r => some (.arr [], r)
          | _ => (parseElems f (d + 1) t).map fun p => (.arr p.1, p.2)
      else if c = 123 then
        if d ≥ maxNesting then none
        else match skipSpace t with
          | 125 :: r => some (.obj [], r)
          | _ => (parseMembers f (d + 1) t).map fun p => (.obj p.1, p.2)
      else if c = 116 then scanWord (asc "rue") (.bool true) t
      else if c = 102 then scanWord (asc "alse") (.bool false) t
      else if c = 110 then scanWord (asc "ull") .null t
      else (scanNum (c :: t)).map fun p => (.num p.1, p.2)
/-- Elements of an array after `[`, up to and with `]` -/
def parseElems : (fuel depth : Nat) → Bytes → Option (List JVal × Bytes)
  | 0, _, _ => none
  | f + 1, d, bs =>
    match parseVal f d bs with
    | none => none
    | some (x, r) =>
      match skipSpace r with
      | 44 :: r => (parseElems f d r).map fun p => (x :: p.1, p.2)
      | 93 :: r => some ([x], r)
      | _ => none
/-- Members of an object after `{`, up to and with `}` -/
def parseMembers : (fuel depth : Nat) → Bytes → Option (List (Bytes × JVal) × Bytes)
  | 0, _, _ => none
  | f + 1, d, bs =>
    match skipSpace bs with
    | 34 :: t =>
      match scanStr t with
      | none => none
      | some (k, r) =>
        match skipSpace r with
        | 58 :: r =>
          match parseVal f d r with
          | none => none
          | some (x, r) =>
            match skipSpace r with
            | 44 :: r => (parseMembers f d r).map fun p => ((k, x) :: p.1, p.2)
            | 125 :: r => some ([(k, x)], r)
            | _ => none
        | _ => none
    | _ => none
end

/-- stdlib json.checkValid and the document: no value unless the whole text is one -/
def jsonParse (bs : Bytes) : Option JVal :=
  match parseVal (2 * bs.length + 2) 0 bs with
  | some (j, r) => if skipSpace r = [] then some j else none
  | none => none

end Verif
