import Verif.Spec.Json
import Verif.Model.Json
import Mathlib.Data.List.Forall2
/-! # Which values keep their meaning in JSON, and in what sense -/
namespace Verif

/-- Values whose text can be read back (C11, C15, C17, C21, C22, C24–C27, C33, C34, C57): symbols made by NewSymbol, assets with a named symbol and a value other than
-2^63, Int128 other than -2^127, arrays of the right length, known key types, times in the years 0 to 9999 without microseconds. -/
def TextTy.Good : (x : TextTy) → x.Val → Prop
  | .name, _ => True
  | .symbol, v => ∃ p n, newSymbol p n = (v, none)
  | .symbolCode, v => ∃ p n s, newSymbol p n = (s, none) ∧ v = Symbol.code s
  | .asset, v => ∃ p n, newSymbol p n = ((show Asset from v).symbol, none) ∧ n ≠ [] ∧ (show Asset from v).value.toInt ≠ -2 ^ 63
  | .bytes, _ => True
  | .blob, _ => True
  | .checksum160, v => List.length (α := UInt8) v = 20
  | .checksum256, v => List.length (α := UInt8) v = 32
  | .checksum512, v => List.length (α := UInt8) v = 64
  | .uint128, _ => True
  | .int128, v => U128.bigInt v ≠ -2 ^ 127
  | .float128, v => List.length (α := UInt8) v = 16
  | .publicKey, v => (show PubKey from v).type.toNat ≤ 2
  | .signature, v => (show Sig from v).type.toNat ≤ 2
  | .timePoint, v => -62167219200000000 ≤ (show Int64 from v).toInt ∧ (show Int64 from v).toInt < 253402300800000000 ∧ 1000 ∣ (show Int64 from v).toInt
  | .timePointSec, _ => True
  | .blockTimestamp, _ => True

/-- Nil bytes come back empty, everything else as it was. -/
def TextTy.Back : (x : TextTy) → x.Val → x.Val → Prop
  | .bytes, v, w => w = some (Option.getD (α := Bytes) v [])
  | .blob, v, w => w = some (Option.getD (α := Bytes) v [])
  | _, v, w => w = v

def JBasic.Good : (b : JBasic) → b.Val → Prop
  | .string, v => Utf8Text v
  | _, _ => True

/-- Nil pointers and slices, which are written as null -/
def JTy.Nil : (t : JTy) → t.Val → Prop
  | .ptr t, v => v = (none : Option t.Val)
  | .slice t, v => v = (none : Option (List t.Val))
  | _, _ => False

/-- Values `omitempty` may drop: zero values and slices without elements -/
def JTy.Nothing : (t : JTy) → t.Val → Prop
  | .slice t, v => v = (none : Option (List t.Val)) ∨ v = (some [] : Option (List t.Val))
  | .text .bytes, v => v = (none : Option Bytes) ∨ v = (some [] : Option Bytes)
  | .text .blob, v => v = (none : Option Bytes) ∨ v = (some [] : Option Bytes)
  | t, v => v = t.zero

mutual
/-- Strings are UTF-8, texts can be read back, no pointer leads to a nil pointer or slice, and signatures can be addressed (`addr`, true behind a pointer and in a
slice). -/
def JTy.Good : (t : JTy) → (addr : Bool) → t.Val → Prop
  | .basic b, _, v => b.Good v
  | .text x, addr, v => x.Good v ∧ (x = .signature → addr = true)
  | .uint64, _, _ => True
  | .blockNum, _, _ => True
  | .ptr t, _, v => ∀ x, v = (some x : Option t.Val) → t.Good true x ∧ ¬ t.Nil x
  | .slice t, _, v => ∀ xs, v = (some xs : Option (List t.Val)) → ∀ x ∈ xs, t.Good true x
  | .struct fs, addr, v => fs.Good addr v
def JFields.Good : (fs : JFields) → (addr : Bool) → fs.Val → Prop
  | .nil, _, _ => True
  | .cons _ _ t fs, addr, v => t.Good addr (show t.Val × fs.Val from v).1 ∧ fs.Good addr (show t.Val × fs.Val from v).2
end

mutual
/-- `w` is `v` after a round trip: equal but for nil bytes, which become empty, and what `omitempty` drops, which becomes zero. -/
def JTy.Back : (t : JTy) → t.Val → t.Val → Prop
  | .basic _, v, w => w = v
  | .text x, v, w => x.Back v w
  | .uint64, v, w => w = v
  | .blockNum, v, w => w = v
  | .ptr t, v, w => (v = (none : Option t.Val) ∧ w = (none : Option t.Val)) ∨ ∃ x y, v = (some x : Option t.Val) ∧ w = (some y : Option t.Val) ∧ t.Back x y
  | .slice t, v, w => (v = (none : Option (List t.Val)) ∧ w = (none : Option (List t.Val))) ∨
      ∃ xs ys, v = (some xs : Option (List t.Val)) ∧ w = (some ys : Option (List t.Val)) ∧ List.Forall₂ t.Back xs ys
  | .struct fs, v, w => fs.Back v w
def JFields.Back : (fs : JFields) → fs.Val → fs.Val → Prop
  | .nil, _, _ => True
  | .cons _ om t fs, v, w =>
    (t.Back (show t.Val × fs.Val from v).1 (show t.Val × fs.Val from w).1 ∨
      (om = true ∧ t.Nothing (show t.Val × fs.Val from v).1 ∧ (show t.Val × fs.Val from w).1 = t.zero)) ∧
    fs.Back (show t.Val × fs.Val from v).2 (show t.Val × fs.Val from w).2
end

def JFields.keys : JFields → List Bytes
  | .nil => []
  | .cons key _ _ fs => key :: fs.keys

mutual
/-- Field names are UTF-8 and differ; no slice of plain bytes. -/
def JTy.Wf : JTy → Prop
  | .ptr t => t.Wf
  | .slice t => t ≠ .basic .u8 ∧ t.Wf
  | .struct fs => fs.keys.Nodup ∧ fs.Wf
  | _ => True
def JFields.Wf : JFields → Prop
  | .nil => True
  | .cons key _ t fs => Utf8Text key ∧ t.Wf ∧ fs.Wf
end

mutual
/-- No field is dropped when empty, and no Float128. -/
def JTy.Plain : JTy → Prop
  | .text x => x ≠ .float128
  | .ptr t => t.Plain
  | .slice t => t.Plain
  | .struct fs => fs.Plain
  | _ => True
def JFields.Plain : JFields → Prop
  | .nil => True
  | .cons _ om t fs => om = false ∧ t.Plain ∧ fs.Plain
end

mutual
/-- Levels of arrays and objects; a signature may be written as an object. -/
def JTy.depth : JTy → Nat
  | .text _ => 1
  | .ptr t => t.depth
  | .slice t => t.depth + 1
  | .struct fs => fs.depth + 1
  | _ => 0
def JFields.depth : JFields → Nat
  | .nil => 0
  | .cons _ _ t fs => max t.depth fs.depth
end

end Verif
