import Verif.Model.Args
/-! # Structs that embed types of package chain

A struct type has the methods of its embedded fields (Go spec, "Struct types", "Selectors"), so a struct that embeds a type of package chain may itself be a
Marshaler (pkg/abi/encode.go:80-85) and an Unmarshaler (pkg/abi/decode.go:146-149, :454-520). Simplified: only the argument of Encode and Decode itself is
such a struct, its parts are as in Model/Reflect; embedded types other than those of package chain have no methods; the struct type has no methods and no fields
called MarshalABI or UnmarshalABI of its own. -/
namespace Verif

/-- MarshalABI has a value receiver: all but asset.go:116,124 and checksum.go:65,69,73 -/
def ChainTy.byValue : ChainTy → Bool
  | .asset | .extendedAsset | .checksum160 | .checksum256 | .checksum512 => false
  | _ => true

/-- A field with MarshalABI and UnmarshalABI -/
def Ty.hasMethods : Ty → Bool
  | .chain _ => true
  | .ptr (.chain _) => true
  | _ => false

/-- Number of embedded fields that have the methods. Methods are promoted if there is exactly one (Go spec, "Selectors"); `emb` says which fields are embedded. -/
def Fields.promoters : Fields → (emb : List Bool) → Nat
  | .nil, _ => 0
  | .cons _ _ _ _, [] => 0
  | .cons _ _ t fs, e :: emb => (if e && t.hasMethods then 1 else 0) + fs.promoters emb

/-- Is the promoted MarshalABI in the method set of the struct type itself? Else only in that of its pointer type (Go spec, "Struct types") -/
def Fields.valueMarshaler : Fields → (emb : List Bool) → Bool
  | .nil, _ => false
  | .cons _ _ _ _, [] => false
  | .cons _ _ t fs, e :: emb =>
    if e && t.hasMethods then
      match t with
      | .chain c => c.byValue
      | _ => true
    else fs.valueMarshaler emb

/-- The promoted MarshalABI -/
def Fields.marshalPromoted : (fs : Fields) → (emb : List Bool) → fs.Val → Enc (Option Err)
  | .nil, _, _ => pure none
  | .cons _ _ _ _, [], _ => pure none
  | .cons _ _ t fs, e :: emb, v =>
    let (x, xs) : t.Val × fs.Val := v
    if e && t.hasMethods then
      match t, x with
      | .chain c, x => c.marshal x
      | .ptr (.chain c), x =>
        match (x : Option c.Val) with
        | some x => c.marshal x
        | none => .panic nilDeref
      | _, _ => pure none
    else fs.marshalPromoted emb xs

/-- The promoted UnmarshalABI -/
def Fields.unmarshalPromoted : (fs : Fields) → (emb : List Bool) → fs.Val → Dec (fs.Val × Option Err)
  | .nil, _, v => pure (v, none)
  | .cons _ _ _ _, [], v => pure (v, none)
  | .cons _ _ t fs, e :: emb, v =>
    let (x, xs) : t.Val × fs.Val := v
    if e && t.hasMethods then
      match t, x with
      | .chain c, x => do
        let (y, err) ← c.unmarshal x
        pure ((y, xs), err)
      | .ptr (.chain c), x =>
        match (x : Option c.Val) with
        | some x => do
          let (y, err) ← c.unmarshal x
          pure (((some y : Option c.Val), xs), err)
        | none => do
          let err ← c.unmarshalNil
          pure (((none : Option c.Val), xs), err)
      | _, x => pure ((x, xs), none)
    else do
      let (ys, err) ← fs.unmarshalPromoted emb xs
      pure ((x, ys), err)

/-- encode.go:28-92 `chain.NewEncoder(w).Encode(s)` (`addr` false) or `Encode(&s)` (true), s a struct of which `emb` says which fields are embedded -/
def encodeEmbedding (fs : Fields) (emb : List Bool) (addr : Bool) (v : fs.Val) : Enc (Option Err) :=
  if fs.promoters emb = 1 ∧ (addr ∨ fs.valueMarshaler emb) then fs.marshalPromoted emb v else encode (.struct fs) v

/-- decode.go:30-94, :143-149, :454-520 `chain.NewDecoder(r).Decode(&s)`; `indirect` takes the address of s only if its type is `named` (:472) -/
def decodeEmbedding (fs : Fields) (emb : List Bool) (named : Bool) (old : fs.Val) : Dec (fs.Val × Option Err) :=
  if fs.promoters emb = 1 ∧ named then fs.unmarshalPromoted emb old else decode (.struct fs) old

end Verif
