import Verif.Model.Embed
/-! # Types of the user with methods MarshalABI and UnmarshalABI

The checks for the interfaces Marshaler (pkg/abi/encode.go:80-85) and Unmarshaler (pkg/abi/decode.go:146-149, :454-520), at any depth of a type. Simplified: all fields that lead to declared
types with methods are exported; keys of maps have no such parts, and there are no fields tagged variant (types without such parts are `plain`). A slice of uint8 is
`plain` too. A method gets the encoder or decoder of package chain: NewEncoder, NewDecoder. -/
namespace Verif

/-- Does the type have MarshalABI, and on the value or on the pointer? -/
inductive Receiver where
  | none | value | pointer
deriving DecidableEq

/-- The methods of a declared type. -/
structure TypeMethods (α : Type) where
  /-- whether there is MarshalABI(*Encoder) error (encode.go:19-21), and its receiver -/
  receiver : Receiver
  /-- what it does, with a receiver that is not nil -/
  marshal : α → Enc (Option Err)
  /-- what it does with a nil receiver, if it is defined on the pointer -/
  marshalNil : Enc (Option Err)
  /-- UnmarshalABI(*Decoder) error on the pointer, if there is such a method (decode.go:17-19) -/
  unmarshal : Option (α → Dec (α × Option Err))

/-- The tags of fields except variant -/
inductive FieldTag where
  | none | optional | extension
deriving DecidableEq

def FieldTag.tag : FieldTag → Tag
  | .none => .none
  | .optional => .optional
  | .extension => .extension

mutual
/-- Types that may have parts with methods -/
inductive MTy where
  /-- none of its parts are -/
  | plain (t : Ty)
  /-- the declared type number i; t is its underlying type, without the methods: not `own`, not a type of package chain (`named` instead of `basic`) -/
  | own (i : Nat) (t : MTy)
  | ptr (t : MTy)
  | slice (t : MTy)
  | array (n : Nat) (t : MTy)
  | map (k : Ty) (t : MTy)
  /-- a struct type without methods -/
  | struct (fs : MFields)
inductive MFields where
  | nil
  | cons (tag : FieldTag) (t : MTy) (fs : MFields)
end

mutual
/-- The type without the methods: it has the same values. -/
def MTy.bare : MTy → Ty
  | .plain t => t
  | .own _ t => t.bare
  | .ptr t => .ptr t.bare
  | .slice t => .slice t.bare
  | .array n t => .array n t.bare
  | .map k t => .map k t.bare
  | .struct fs => .struct fs.bare
def MFields.bare : MFields → Fields
  | .nil => .nil
  | .cons tag t fs => .cons .exported tag.tag t.bare fs.bare
end

/-- The methods of the declared types of a program -/
abbrev Program := (i : Nat) → (t : MTy) → TypeMethods t.bare.Val

section
variable (M : Program)

mutual
/-- encode.go:28-77 `Encode`, :79-155 `EncodeValue`: a value is a Marshaler if the method is defined on the value, a pointer to it in any case. -/
def encodeM : (t : MTy) → t.bare.Val → Enc (Option Err)
  | .plain t, v => encode t v
  | .own i t, v =>
    match (M i t).receiver with
    | .value => (M i t).marshal v
    | _ => encodeM t v
  | .ptr t, v =>
    match t, v with
    | .plain t, v => encode (.ptr t) v
    | .own i t, v =>
      match (show Option t.bare.Val from v), (M i t).receiver with
      | some x, .none => encodeM t x
      | some x, _ => (M i t).marshal x
      | none, .none => encode (.ptr t.bare) none
      | none, .value => .panic "value method called using nil pointer"
      | none, .pointer => (M i t).marshalNil
    | t, v =>
      match (show Option t.bare.Val from v) with
      | some x => encodeM t x
      | none => pure (some errNilPtr)
  | .slice t, v => do
    let xs : List t.bare.Val := Option.getD v []
    match ← writeVaruint xs.length.toUInt64 with
    | some e => pure (some e)
    | none => encEach (encodeM t) (pure none) xs
  | .array _ t, v => encEach (encodeM t) (pure none) v
  | .map k t, v => do
    let xs : List (k.Val × t.bare.Val) := Option.getD v []
    match ← writeVaruint xs.length.toUInt64 with
    | some e => pure (some e)
    | none => encEach (fun (x, y) => do
        match ← encode k x with
        | some e => pure (some e)
        | none => encodeM t y) (pure none) xs
  | .struct fs, v => encodeMFields fs v
/-- encode.go:111-125 -/
def encodeMFields : (fs : MFields) → fs.bare.Val → Enc (Option Err)
  | .nil, _ => pure none
  | .cons tag t fs, v =>
    let (x, xs) : t.bare.Val × fs.bare.Val := v
    encodeField .exported tag.tag (t.bare.isZero x) (encodeM t x) (encodeMFields fs xs)
end

mutual
/-- decode.go:30-94 `Decode`, :143-308 `DecodeValue`: `indirect` (:454-520) takes the address of the destination, or follows pointers to it, and finds UnmarshalABI. -/
def decodeM : (t : MTy) → Mode → t.bare.Val → Dec (t.bare.Val × Option Err)
  | .plain t, mode, old => decodeWith chainDecoder t mode old
  | .own i t, mode, old =>
    match (M i t).unmarshal with
    | some u => u old
    | none => decodeM t mode old
  | .ptr t, mode, old =>
    let old : Option t.bare.Val := old
    match mode with
    | .elem => do
      let (x, err) ← decodeM t .decode (old.getD t.bare.zero)
      pure ((some x : Option t.bare.Val), err)
    | _ => do
      let (x, err) ← decodeM t .value (old.getD t.bare.zero)
      pure ((some x : Option t.bare.Val), err)
  | .slice t, _, old => decodeSlice t.bare.zero t.bare.size (decodeM t .elem) old
  | .array _ t, _, old => decEach (decodeM t .elem) old
  | .map k t, _, old => decodeMap (decodeWith chainDecoder k .decode k.zero) (decodeM t .decode t.bare.zero) old
  | .struct fs, _, old => decodeMFields fs none old
/-- decode.go:206-251, :307 -/
def decodeMFields : (fs : MFields) → (err : Option Err) → fs.bare.Val → Dec (fs.bare.Val × Option Err)
  | .nil, err, old => pure (old, err)
  | .cons tag t fs, err, old =>
    let (x, xs) : t.bare.Val × fs.bare.Val := old
    decodeField .exported tag.tag x (t.bare.alloc x) t.bare.zero (fun mode => decodeM t mode (t.bare.alloc x)) xs err (fun err => decodeMFields fs err xs)
end
end

/-- Programs without methods of their own, in which `emb i` says which fields of the type number i are embedded: the methods are those promoted (Model/Embed). -/
def embedding (emb : Nat → List Bool) : Program
  | i, .struct fs =>
    if fs.bare.promoters (emb i) = 1 then
      ⟨if fs.bare.valueMarshaler (emb i) then .value else .pointer, fs.bare.marshalPromoted (emb i), .panic nilDeref, some (fs.bare.unmarshalPromoted (emb i))⟩
    else ⟨.none, fun _ => pure none, pure none, none⟩
  | _, _ => ⟨.none, fun _ => pure none, pure none, none⟩

end Verif
