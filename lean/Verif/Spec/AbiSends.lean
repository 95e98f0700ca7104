import Verif.Spec.AbiWire
/-! # What Abi.Encode writes for a builtin type

Of the model only the data types are used. -/
namespace Verif

/-- Every case of the switch in Abi.Encode: a value of the Go type that belongs to the builtin type, in range; keys and signatures are written whatever their data. "bytes" is written
without its length. -/
inductive SendsAs : Bytes → AV → Bytes → Prop
  | basic {b : Bytes} {ty : Basic} {x : ty.Val} {bs : Bytes} : (b, ty) ∈ abiBasics → ty.Wf x → ty.Layout x bs → SendsAs b (.basic ty x) bs
  | chain {b : Bytes} {c : ChainTy} {x : c.Val} {bs : Bytes} : (b, c) ∈ abiChains → c.Layout x bs → SendsAs b (.chain c x) bs
  | uint64 {x : UInt64} {bs : Bytes} : LeForm 8 x.toNat bs → SendsAs (asc "uint64") (.basic .u64 x) bs
  | eosioName {x : UInt64} {bs : Bytes} : LeForm 8 x.toNat bs → SendsAs (asc "eosio::name") (.chain .name x) bs
  | bytes {bs : Bytes} : SendsAs (asc "bytes") (.byteSlice bs) bs

end Verif
