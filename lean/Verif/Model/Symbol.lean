import Verif.Go.Strconv
import Verif.Model.Name
/-! # pkg/chain/symbol.go and pkg/chain/asset.go -/
namespace Verif

/-- symbol.go:148-153, the loop of `rawSymbolValue` from index `i` on. -/
def rawSymbolLoop : Bytes → (i : Nat) → (rv : UInt64) → Option UInt64
  | [], _, rv => some rv
  | c :: cs, i, rv =>
    if ¬(c ≥ 65 ∧ c ≤ 90) then none
    else rawSymbolLoop cs (i + 1) (rv ||| (c.toUInt64 <<< (8 * (i + 1)).toUInt64))

/-- symbol.go:140-156 `rawSymbolValue` -/
def rawSymbolValue (precision : UInt8) (s : Bytes) : UInt64 × Option Err :=
  if precision > 18 then (0, some (.msg "invalid symbol precision"))
  else if s.length > 7 then (0, some (.msg "invalid symbol name"))
  else match rawSymbolLoop s 0 0 with
    | none => (0, some (.msg "invalid character in symbol name"))
    | some rv => (rv ||| precision.toUInt64, none)

/-- symbol.go:17-23 `NewSymbol` -/
def newSymbol (precision : UInt8) (name : Bytes) : UInt64 × Option Err :=
  match rawSymbolValue precision name with
  | (_, some e) => (0, some e)
  | (v, none) => (v, none)

/-- symbol.go:26-41 `NewSymbolFromString`. `uint8(precision)` wraps the parsed int8 (so negative numbers become > 127). -/
def newSymbolFromString (s : Bytes) : UInt64 × Option Err :=
  match splitByte 44 s with
  | [p0, p1] =>
    match parseInt 8 p0 with
    | (_, some e) => (0, some e)
    | (precision, none) =>
      match rawSymbolValue (precision % 256).toNat.toUInt8 p1 with
      | (_, some e) => (0, some e)
      | (v, none) => (v, none)
  | _ => (0, some (.msg "invalid asset symbol string"))

/-- symbol.go:48-51, the loop of `Name`; seven iterations suffice since `v < 2^56`. -/
def symbolNameLoop : (fuel : Nat) → (v : UInt64) → Bytes
  | 0, _ => []
  | f + 1, v => if v > 0 then runeOfByte v.toUInt8 ++ symbolNameLoop f (v >>> 8) else []

/-- symbol.go:44-53 `Symbol.Name` -/
def Symbol.name (s : UInt64) : Bytes := symbolNameLoop 7 (s >>> 8)

/-- symbol.go:56-58 `Symbol.Code` -/
def Symbol.code (s : UInt64) : UInt64 := s >>> 8

/-- symbol.go:61-63 `Symbol.Decimals` (0..255, so representing the Go `int` by a Nat loses nothing) -/
def Symbol.decimals (s : UInt64) : Nat := (s &&& 0xFF).toNat

/-- symbol.go:69-72, the loop of `Precision` in wrapping 64-bit `int` arithmetic. -/
def precisionLoop : (p : Nat) → (p10 : Int64) → Int64
  | 0, p10 => p10
  | p + 1, p10 => precisionLoop p (p10 * 10)

/-- symbol.go:66-74 `Symbol.Precision` -/
def Symbol.precision (s : UInt64) : Int64 := precisionLoop (Symbol.decimals s) 1

/-- symbol.go:77-79 `Symbol.String` -/
def Symbol.string (s : UInt64) : Bytes := fmtNat (Symbol.decimals s) ++ [44] ++ Symbol.name s

/-- symbol.go:83-85 `Symbol.MarshalABI`, :87-89 `SymbolCode.MarshalABI` -/
def Symbol.marshal (s : UInt64) : Enc (Option Err) := writeUint64 s

/-- symbol.go:93-99 `Symbol.UnmarshalABI`, :101-107 `SymbolCode.UnmarshalABI` -/
def Symbol.unmarshal (old : UInt64) : Dec (UInt64 × Option Err) := do
  let (v, err) ← readUint64
  match err with
  | some e => pure (old, some e)
  | none => pure (v, none)

/-- symbol.go:111-113 `Symbol.MarshalText` -/
def Symbol.marshalText (s : UInt64) : Bytes := Symbol.string s

/-- symbol.go:115-118 `SymbolCode.MarshalText` -/
def SymbolCode.marshalText (sc : UInt64) : Bytes := Symbol.name (sc <<< 8)

/-- symbol.go:122-128 `Symbol.UnmarshalText` -/
def Symbol.unmarshalText (old : UInt64) (text : Bytes) : UInt64 × Option Err :=
  match newSymbolFromString text with
  | (v, none) => (v, none)
  | (_, some e) => (old, some e)

/-- symbol.go:130-136 `SymbolCode.UnmarshalText` -/
def SymbolCode.unmarshalText (old : UInt64) (text : Bytes) : UInt64 × Option Err :=
  match newSymbolFromString ([48, 44] ++ text) with
  | (v, none) => (Symbol.code v, none)
  | (_, some e) => (old, some e)

/-- asset.go:14-17 `Asset`; `NewAsset` (:25-27) is its constructor. -/
structure Asset where
  value : Int64
  symbol : UInt64
deriving DecidableEq, Repr

/-- asset.go:19-22 `ExtendedAsset` -/
structure ExtendedAsset where
  quantity : Asset
  contract : UInt64
deriving DecidableEq, Repr

/-- asset.go:12 -/
def errInvalidAssetString : Err := .msg "invalid asset string"

/-- asset.go:38-60, the character loop of `NewAssetFromString`; `none` is `return nil, ErrInvalidAssetString`. Go ranges over runes; here the
loop goes over bytes. Every rune of more than one byte, and every byte that is not part of valid UTF-8, is not a digit, so both stop there
with the same error. -/
def assetLoop : Bytes → (i : Nat) → (foundPoint : Bool) → (precision : UInt8) → (builder : Bytes) → Option (UInt8 × Bytes)
  | [], _, _, precision, builder => some (precision, builder)
  | c :: cs, i, foundPoint, precision, builder =>
    if c = 46 then
      if foundPoint then none else assetLoop cs (i + 1) true precision builder
    else
      let builder := builder ++ [c]
      if c = 45 ∧ i = 0 then assetLoop cs (i + 1) foundPoint precision builder
      else
        let precision := if foundPoint then precision + 1 else precision
        if foundPoint ∧ precision > 18 then none
        else if c ≥ 48 ∧ c ≤ 57 then assetLoop cs (i + 1) foundPoint precision builder
        else none

/-- asset.go:30-71 `NewAssetFromString` -/
def newAssetFromString (s : Bytes) : Option Asset × Option Err :=
  match splitByte 32 s with
  | [p0, p1] =>
    if p0 = [] ∨ p1 = [] then (none, some errInvalidAssetString)
    else
      match assetLoop p0 0 false 0 [] with
      | none => (none, some errInvalidAssetString)
      | some (precision, builder) =>
        match parseInt 64 builder with
        | (_, some e) => (none, some e)
        | (units, none) =>
          match newSymbol precision p1 with
          | (_, some e) => (none, some e)
          | (symbol, none) => (some ⟨Int64.ofInt units, symbol⟩, none)
  | _ => (none, some errInvalidAssetString)

/-- asset.go:74-80 `A` -/
def assetA (s : Bytes) : Pan Asset := match newAssetFromString s with
  | (some a, none) => .val a
  -- NewAssetFromString returns one of the two
  | _ => .panic "NewAssetFromString"

/-- asset.go:83-102 `Asset.String`, and :155-157 `MarshalText`, which returns its bytes. Division by a zero `Precision()` panics. -/
def Asset.string (a : Asset) : Pan Bytes :=
  let s : Bytes := if a.value < 0 then [45] else []
  let v := if a.value < 0 then -a.value else a.value
  if Symbol.precision a.symbol = 0 then .panic "integer divide by zero"
  else
    let s := s ++ fmtInt (v / Symbol.precision a.symbol).toInt
    let s := if Symbol.decimals a.symbol > 0 then
        let fs := fmtInt (v % Symbol.precision a.symbol).toInt
        s ++ [46] ++ (List.replicate (Symbol.decimals a.symbol - fs.length) 48 ++ fs)
      else s
    .val (s ++ [32] ++ Symbol.name a.symbol)

/-- asset.go:116-122 `Asset.MarshalABI` -/
def Asset.marshal (a : Asset) : Enc (Option Err) := do
  match ← writeInt64 a.value with
  | some e => pure (some e)
  | none => Symbol.marshal a.symbol

/-- asset.go:124-130 `ExtendedAsset.MarshalABI` -/
def ExtendedAsset.marshal (ea : ExtendedAsset) : Enc (Option Err) := do
  match ← ea.quantity.marshal with
  | some e => pure (some e)
  | none => Name.marshal ea.contract

/-- asset.go:134-141 `Asset.UnmarshalABI` -/
def Asset.unmarshal (old : Asset) : Dec (Asset × Option Err) := do
  let (v, err) ← readInt64
  match err with
  | some e => pure (old, some e)
  | none =>
    let (sym, err) ← Symbol.unmarshal 0
    pure (⟨v, sym⟩, err)

/-- asset.go:143-151 `ExtendedAsset.UnmarshalABI` -/
def ExtendedAsset.unmarshal (old : ExtendedAsset) : Dec (ExtendedAsset × Option Err) := do
  let (q, err) ← Asset.unmarshal old.quantity
  match err with
  | some e => pure (⟨q, old.contract⟩, some e)
  | none =>
    let (c, err) ← Name.unmarshal old.contract
    pure (⟨q, c⟩, err)

/-- asset.go:161-167 `Asset.UnmarshalText` -/
def Asset.unmarshalText (old : Asset) (text : Bytes) : Asset × Option Err :=
  match newAssetFromString text with
  | (some a, none) => (a, none)
  | (_, e) => (old, e)

end Verif
