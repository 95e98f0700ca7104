import Verif.Spec.Abi
/-! # The wire form of values of ABI types

Of the model only the data types are used. -/
namespace Verif

/-- v is what `m[k]` yields for the map with the entries m. -/
def Entry (m : List (Bytes × AV)) (k : Bytes) (v : AV) : Prop := First m (fun e => e.1 = k) (k, v) ∨ ((∀ e ∈ m, e.1 ≠ k) ∧ v = .nil)

/-- A count within the bounds of the varuint writer (C03). -/
def Count (p : Bytes) (n : Nat) : Prop := MinLeb p n ∧ n < 2 ^ 28

section
variable (a : Abi) (B : Bytes → AV → Bytes → Prop) (exact : Bool)

mutual
/-- bs is the wire form of the value v of the type with name n. B gives the wire forms of the types the ABI does not define. A struct is a map from field names to
values, a variant a pair of type name and value. With `exact`, a map contains the fields of the struct, each once, in their order, and nothing else; otherwise absent
entries count as nil and other entries are allowed. -/
inductive Wire : (n : Bytes) → AV → Bytes → Prop
  | absent {n b : Bytes} {arr ext : Bool} : Spelled n b arr ext true → Wire n .nil [0]
  | present {n b : Bytes} {arr ext : Bool} {v : AV} {bs : Bytes} : Spelled n b arr ext true → v ≠ .nil → Body b arr v bs → Wire n v (1 :: bs)
  | plain {n b : Bytes} {arr ext : Bool} {v : AV} {bs : Bytes} : Spelled n b arr ext false → v ≠ .nil → Body b arr v bs → Wire n v bs
/-- The form of a value of a type with base name b, or of an array of them -/
inductive Body : (b : Bytes) → (arr : Bool) → AV → Bytes → Prop
  | one {b : Bytes} {v : AV} {bs : Bytes} : Inner b v bs → Body b false v bs
  | many {b : Bytes} {xs : List AV} {p bs : Bytes} : Count p xs.length → Items b xs bs → Body b true (.slice xs) (p ++ bs)
inductive Items : (b : Bytes) → List AV → Bytes → Prop
  | nil {b : Bytes} : Items b [] []
  | cons {b : Bytes} {x : AV} {xs : List AV} {b1 b2 : Bytes} : Inner b x b1 → Items b xs b2 → Items b (x :: xs) (b1 ++ b2)
/-- The form of a value of a type with base name b -/
inductive Inner : (b : Bytes) → AV → Bytes → Prop
  | alias {b : Bytes} {t : AbiType} {v : AV} {bs : Bytes} : IsAlias a b t → Wire t.type v bs → Inner b v bs
  | struct {b : Bytes} {f : AbiField} {fs : List AbiField} {m : List (Bytes × AV)} {bs : Bytes} : FieldsOf a b (f :: fs) → Members (f :: fs) m bs →
    (exact = true → m.map Prod.fst = (f :: fs).map AbiField.name ∧ (m.map Prod.fst).Nodup) → Inner b (.map m) bs
  | variant {b : Bytes} {v : AbiVariant} {pre post : List Bytes} {t : Bytes} {x : AV} {p bs : Bytes} : IsVariant a b v → v.types = pre ++ t :: post → t ∉ pre →
    Count p pre.length → Wire t x bs → Inner b (.slice [.basic .string t, x]) (p ++ bs)
  | builtin {b : Bytes} {v : AV} {bs : Bytes} : NotDefined a b → B b v bs → Inner b v bs
  /-- A struct without fields, or with a base that is not a struct, is looked up among the builtin types. -/
  | hollow {b : Bytes} {s : AbiStruct} {v : AV} {bs : Bytes} : IsStruct a b s → (∀ fs, FieldsOf a b fs → fs = []) → B b v bs → Inner b v bs
inductive Members : List AbiField → (m : List (Bytes × AV)) → Bytes → Prop
  | nil {m : List (Bytes × AV)} : Members [] m []
  | cons {f : AbiField} {fs : List AbiField} {m : List (Bytes × AV)} {x : AV} {b1 b2 : Bytes} : Entry m f.name x → Wire f.type x b1 → Members fs m b2 →
    Members (f :: fs) m (b1 ++ b2)
end
end

/-! ## Builtin types -/

def abiBasics : List (Bytes × Basic) := [(asc "bool", .bool), (asc "string", .string), (asc "uint8", .u8), (asc "uint16", .u16), (asc "uint32", .u32),
  (asc "int8", .i8), (asc "int16", .i16), (asc "int32", .i32), (asc "int64", .i64), (asc "float32", .f32), (asc "float64", .f64), (asc "varuint32", .uint), (asc "varint32", .int)]

def abiChains : List (Bytes × ChainTy) := [(asc "uint64", .uint64), (asc "uint128", .uint128), (asc "int128", .int128), (asc "float128", .float128), (asc "asset", .asset),
  (asc "block_timestamp_type", .blockTimestamp), (asc "checksum160", .checksum160), (asc "checksum256", .checksum256), (asc "checksum512", .checksum512),
  (asc "extended_asset", .extendedAsset), (asc "name", .name), (asc "public_key", .publicKey), (asc "signature", .signature), (asc "symbol_code", .symbolCode),
  (asc "symbol", .symbol), (asc "time_point_sec", .timePointSec), (asc "time_point", .timePoint)]

/-- The builtin types that Encode and Decode treat alike. -/
inductive Plain : Bytes → AV → Bytes → Prop
  | basic {b : Bytes} {ty : Basic} {x : ty.Val} {bs : Bytes} : (b, ty) ∈ abiBasics → ty.Wf x → ty.Layout x bs → Plain b (.basic ty x) bs
  | chain {b : Bytes} {c : ChainTy} {x : c.Val} {bs : Bytes} : (b, c) ∈ abiChains → c.Wf x → c.Layout x bs → Plain b (.chain c x) bs

/-- Everything Encode accepts: also "eosio::name", Go's uint64, and "bytes" from a []byte, which is written without its length. -/
inductive EncodesAs : Bytes → AV → Bytes → Prop
  | plain {b : Bytes} {v : AV} {bs : Bytes} : Plain b v bs → EncodesAs b v bs
  | uint64 {x : UInt64} {bs : Bytes} : LeForm 8 x.toNat bs → EncodesAs (asc "uint64") (.basic .u64 x) bs
  | eosioName {x : UInt64} {bs : Bytes} : LeForm 8 x.toNat bs → EncodesAs (asc "eosio::name") (.chain .name x) bs
  | bytes {bs : Bytes} : EncodesAs (asc "bytes") (.byteSlice bs) bs

/-- Everything Decode yields: also "bytes" -/
inductive DecodesAs : Bytes → AV → Bytes → Prop
  | plain {b : Bytes} {v : AV} {bs : Bytes} : Plain b v bs → DecodesAs b v bs
  | bytes {x bs : Bytes} : x.length < 2 ^ 28 → Prefixed bs x → DecodesAs (asc "bytes") (.chain .bytes (some x)) bs

/-- v has the Go type that Encode expects for the builtin type b. -/
inductive GoTyped : Bytes → AV → Prop
  | basic {b : Bytes} {ty : Basic} {x : ty.Val} : (b, ty) ∈ abiBasics → GoTyped b (.basic ty x)
  | chain {b : Bytes} {c : ChainTy} {x : c.Val} : (b, c) ∈ abiChains → GoTyped b (.chain c x)
  | uint64 {x : UInt64} : GoTyped (asc "uint64") (.basic .u64 x)
  | eosioName {x : UInt64} : GoTyped (asc "eosio::name") (.chain .name x)
  | bytes {x : Bytes} : GoTyped (asc "bytes") (.byteSlice x)

/-- Keys and signatures have data of the right length, arrays have their length. -/
def AV.LeafWf : AV → Prop
  | .chain c x => c.Wf x
  | _ => True

/-- What Encode must have found to have written bs for a builtin type. -/
def Fits (b : Bytes) (v : AV) (bs : Bytes) : Prop := GoTyped b v ∧ (v.LeafWf → EncodesAs b v bs)

/-! ## Values of Go -/

mutual
/-- No string or slice has 2^63 elements or more: lengths are ints. -/
def AV.Real : AV → Prop
  | .basic .string x => List.length (α := UInt8) x < 2 ^ 63
  | .slice xs => xs.length < 2 ^ 63 ∧ realAll xs
  | .map m => realEntries m
  | _ => True
def realAll : List AV → Prop
  | [] => True
  | x :: xs => x.Real ∧ realAll xs
def realEntries : List (Bytes × AV) → Prop
  | [] => True
  | (_, x) :: m => x.Real ∧ realEntries m
end
def Abi.Real (a : Abi) : Prop := ∀ v ∈ a.variants, v.types.length < 2 ^ 63

mutual
/-- w is v with some entries of its maps left out and absent entries made explicit as nil. -/
inductive Restricts : AV → AV → Prop
  | same {v : AV} : Restricts v v
  | slice {xs ys : List AV} : RestrictsAll xs ys → Restricts (.slice xs) (.slice ys)
  | map {m m' : List (Bytes × AV)} : RestrictsEntries m m' → Restricts (.map m) (.map m')
inductive RestrictsAll : List AV → List AV → Prop
  | nil : RestrictsAll [] []
  | cons {x y : AV} {xs ys : List AV} : Restricts x y → RestrictsAll xs ys → RestrictsAll (x :: xs) (y :: ys)
inductive RestrictsEntries : List (Bytes × AV) → List (Bytes × AV) → Prop
  | nil {m : List (Bytes × AV)} : RestrictsEntries m []
  | cons {m m' : List (Bytes × AV)} {k : Bytes} {x y : AV} : Entry m k x → Restricts x y → RestrictsEntries m m' → RestrictsEntries m ((k, y) :: m')
end

/-- No struct has two fields of the same name, counting those of its bases. -/
def Abi.DistinctFields (a : Abi) : Prop := ∀ b fs, FieldsOf a b fs → (fs.map AbiField.name).Nodup
/-- No type name in the definition of n, direct or indirect, is short. -/
def Abi.NoShort (a : Abi) (n : Bytes) : Prop := ∀ m, Reach a n m → ¬ ShortName m

end Verif
