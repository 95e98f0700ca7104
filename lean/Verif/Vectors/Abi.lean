import Verif.Model.Reflect
import Verif.Vectors.Lit
/-! # Test vectors of pkg/abi

The expectations of pkg/abi/decode_test.go and pkg/abi/encode_test.go, evaluated on the model. These are tests of the model (does it compute what
the project's own tests expect of the code?), not proofs of properties. Recursive types are unfolded as far as the data goes. -/
namespace Verif.Vectors

def noopEnc : EncFn := fun _ _ => pure (false, none)
def noopDec : DecFn := fun _ old => pure (old, false, none)

/-- decode_test.go:11-19 `unmarshal` -/
def unm (t : Ty) (old : t.Val) (bs : Bytes) : Out (t.Val × Option Err) := (decodeWith noopDec t .decode old).run bs
/-- decode_test.go `testDecoder(data).DecodeVariant(&v)` -/
def unmVariant (t : Ty) (old : t.Val) (bs : Bytes) : Out (t.Val × Option Err) :=
  (do let (idx, err) ← readByte
      match err with
      | some e => pure (old, some e)
      | none => decodeWith noopDec t (.variant idx.toNat) old : Dec (t.Val × Option Err)).run bs
/-- encode_test.go `abi.NewEncoder(b, noopEncodefunc).Encode(v)` -/
def mar (t : Ty) (v : t.Val) : EOut (Option Err) := (encodeWith noopEnc t v).run

def F (t : Ty) (fs : Fields) : Fields := .cons .exported .none t fs
def Fopt (t : Ty) (fs : Fields) : Fields := .cons .exported .optional t fs

/-! decode_test.go:23-68 -/
def testStruct : Ty := .struct (F (.basic .u64) .nil)
def testNestedStruct : Ty := .struct (F (.basic .i32) (F testStruct .nil))
def nested : testNestedStruct.Val := ((-1 : Int32), ((42 : UInt64), ()), ())
def structData : Bytes := hex! "ffffffff2a00000000000000"
example : unm testNestedStruct ((0 : Int32), ((0 : UInt64), ()), ()) structData = .ok (nested, none) [] := by decide +kernel
example : mar testNestedStruct nested = .ok none structData := by decide +kernel

def rec0 : Ty := .struct (F (.basic .u64) (Fopt (.ptr (.basic .u64)) .nil))
def rec1 : Ty := .struct (F (.basic .u64) (Fopt (.ptr rec0) .nil))
def rec2 : Ty := .struct (F (.basic .u64) (Fopt (.ptr rec1) .nil))
example : unm rec2 rec2.zero (hex! "2a0000000000000001b2c99eb33c36e305011cd7e8080100000000") =
    .ok (((42 : UInt64), some ((424242424242424242 : UInt64), some ((4444444444 : UInt64), (none : Option UInt64), ()), ()), ()), none) [] := by
  decide +kernel

/-! decode_test.go:70-188 -/
def testBigStruct : Ty :=
  .struct (F (.basic .i32) (F (.basic .u64) (F (.basic .string) (F .bytes (F testNestedStruct (F (.slice testNestedStruct) .nil))))))
def bigStructData : Bytes := hex!
  "b29e43ff2a0000000000000012677265796d61737320697320666173746572800267972088478ae72c87120448f8b5ea02bda25e77093c7121c2309aa92f5796e6035c1db8ed1acfe9a5596a072c253bed6670e20270e941d25f607a79d0b9f0296b0ff30b81912971d7b0ac7b348961f8c571ccee5b136b61c231d8bb0df5a88c2224efb51eac76fb3aea5f0a6674ae12b5f0b1d9f6802992fc5a0cfa02d2d098eb22a6eba5af37ce3e5dfe0a6bf0a6e56ccc05a6b294c40cb88a53e580bf9e1fb6a706727952fdfed6d11b8b403526132ab656e6f61e9f7a96b08db911800d2da3a63bedbe5ff6bf028fa0d1855a974a75ed723ad4b96b60009d75ef9d4d542bdc7f226fe48ec88db2d7009003aa4cfa82efb9d2816640f0c852662352897959ffffffff2a0000000000000005ffffffff2a00000000000000ffffffff2a00000000000000ffffffff2a00000000000000ffffffff2a00000000000000ffffffff2a00000000000000"
def bigValue : testBigStruct.Val :=
  ((-12345678 : Int32), (42 : UInt64), txt! "greymass is faster", some (hex!
    "67972088478ae72c87120448f8b5ea02bda25e77093c7121c2309aa92f5796e6035c1db8ed1acfe9a5596a072c253bed6670e20270e941d25f607a79d0b9f0296b0ff30b81912971d7b0ac7b348961f8c571ccee5b136b61c231d8bb0df5a88c2224efb51eac76fb3aea5f0a6674ae12b5f0b1d9f6802992fc5a0cfa02d2d098eb22a6eba5af37ce3e5dfe0a6bf0a6e56ccc05a6b294c40cb88a53e580bf9e1fb6a706727952fdfed6d11b8b403526132ab656e6f61e9f7a96b08db911800d2da3a63bedbe5ff6bf028fa0d1855a974a75ed723ad4b96b60009d75ef9d4d542bdc7f226fe48ec88db2d7009003aa4cfa82efb9d2816640f0c852662352897959"),
    nested, some (List.replicate 5 nested), ())
example : unm testBigStruct testBigStruct.zero bigStructData = .ok (bigValue, none) [] := by decide +kernel
example : mar testBigStruct bigValue = .ok none bigStructData := by decide +kernel

/-! decode_test.go:190-242 -/
def testVariant : Ty := .struct (F (.ptr (.basic .u64)) (F (.ptr (.basic .string)) .nil))
example : unmVariant testVariant testVariant.zero (hex! "0080b1915e5d268dca") =
    .ok ((some (14595364149838066048 : UInt64), (none : Option Bytes), ()), none) [] := by decide +kernel
example : unmVariant testVariant (some (14595364149838066048 : UInt64), (none : Option Bytes), ()) (hex! "010b68656c6c6f20776f726c64") =
    .ok (((none : Option UInt64), some (txt! "hello world"), ()), none) [] := by decide +kernel

/-! decode_test.go:244-308 -/
example : unm .bytes (none : Option Bytes) [3, 1, 2, 3] = .ok (some ([1, 2, 3] : Bytes), none) [] := by decide +kernel
example : unm (.slice (.basic .u16)) (none : Option (List UInt16)) [0x03, 0x64, 0x00, 0xe8, 0x03, 0x10, 0x27] =
    .ok (some ([100, 1000, 10000] : List UInt16), none) [] := by decide +kernel
def vecPtr : Ty := .ptr (.slice (.ptr (.basic .string)))
example : unm vecPtr (none : Option (Option (List (Option Bytes)))) (hex! "020568656c6c6f05776f726c64") =
    .ok (some (some [some (txt! "hello"), some (txt! "world")]), none) [] := by decide +kernel
example : unm vecPtr (some (some [some (txt! "hello"), some (txt! "world")]) : Option (Option (List (Option Bytes)))) (hex! "010568656c6c6f") =
    .ok (some (some [some (txt! "hello")]), none) [] := by decide +kernel
example : unm (.array 3 (.basic .u16)) ([0, 0, 0] : List UInt16) [0x64, 0x00, 0xe8, 0x03, 0x10, 0x27] =
    .ok (([100, 1000, 10000] : List UInt16), none) [] := by decide +kernel
example : unm (.array 3 (.ptr (.basic .u16))) ([none, none, none] : List (Option UInt16)) [0x64, 0x00, 0xe8, 0x03, 0x10, 0x27] =
    .ok (([some 100, some 1000, some 10000] : List (Option UInt16)), none) [] := by decide +kernel

/-! decode_test.go:310-371 -/
example : unm (.basic .uint) (0 : UInt64) [0xce, 0xc2, 0xf1, 0x05] = .ok ((12345678 : UInt64), none) [] := by decide +kernel
example : unm (.basic .int) (0 : Int64) [0x9b, 0x85, 0xe3, 0x0b] = .ok ((-12345678 : Int64), none) [] := by decide +kernel
def mapPtr : Ty := .ptr (.map (.basic .u8) (.basic .u8))
example : unm mapPtr (none : Option (Option (List (UInt8 × UInt8)))) (hex! "03010a0214031e") =
    .ok ((some (some [(1, 10), (2, 20), (3, 30)]) : Option (Option (List (UInt8 × UInt8)))), none) [] := by decide +kernel
example : unm mapPtr (some (some [(1, 10), (2, 20), (3, 30)]) : Option (Option (List (UInt8 × UInt8)))) (hex! "03050a0614071e") =
    .ok ((some (some [(5, 10), (6, 20), (7, 30)]) : Option (Option (List (UInt8 × UInt8)))), none) [] := by decide +kernel
/- float32(3.1415927) and float64(3.141592653589793) -/
example : unm (.basic .f32) (0 : UInt32) [0xdb, 0x0f, 0x49, 0x40] = .ok ((0x40490fdb : UInt32), none) [] := by decide +kernel
example : unm (.basic .f64) (0 : UInt64) [0x18, 0x2d, 0x44, 0x54, 0xfb, 0x21, 0x09, 0x40] = .ok ((0x400921fb54442d18 : UInt64), none) [] := by
  decide +kernel

/-! decode_test.go:373-463 `TestReuse`. The order of map entries is the one in which Go happens to range over the map; here the order written. -/
def tstF : Ty := .struct (F (.basic .i16) (F (.basic .u16) .nil))
def tstWith (g : Ty) : Ty :=
  .struct (F (.basic .u64) (F (.ptr (.basic .string)) (F .bytes (F (.map (.basic .u8) (.basic .u8)) (F (.array 3 (.basic .int)) (F tstF
    (Fopt (.ptr g) (Fopt (.basic .u64) .nil))))))))
def tst1 : Ty := tstWith (.basic .u64)
def tst : Ty := tstWith tst1
def v1g : tst1.Val :=
  ((4242 : UInt64), some (txt! "hello world"), some ([44, 55, 66] : Bytes), some ([(2, 22), (3, 33), (4, 44)] : List (UInt8 × UInt8)),
    ([9, 9, 2] : List Int64), ((222 : Int16), (0 : UInt16), ()), (none : Option UInt64), (0 : UInt64), ())
def v1 : tst.Val :=
  ((14595364149838066048 : UInt64), some (txt! "hello world"), some ([1, 2, 3] : Bytes), some ([(1, 10), (2, 20), (3, 30)] : List (UInt8 × UInt8)),
    ([1, 2, 3] : List Int64), ((-1 : Int16), (2 : UInt16), ()), some v1g, (22 : UInt64), ())
def v2 : tst.Val :=
  ((5555 : UInt64), some (txt! "goodbye"), some ([2] : Bytes), some ([(99, 255)] : List (UInt8 × UInt8)),
    ([55, 55, 55] : List Int64), ((-2 : Int16), (42 : UInt16), ()), (none : Option tst1.Val), (0 : UInt64), ())
def outOf : EOut (Option Err) → Bytes
  | .ok none out => out
  | _ => []
example : ∃ out, mar tst v1 = .ok none out := ⟨outOf (mar tst v1), by decide +kernel⟩
example : ∃ out, mar tst v2 = .ok none out := ⟨outOf (mar tst v2), by decide +kernel⟩
example : unm tst tst.zero (outOf (mar tst v1)) = .ok (v1, none) [] := by decide +kernel
example : unm tst v1 (outOf (mar tst v2)) = .ok (v2, none) [] := by decide +kernel
example : unm tst v2 (outOf (mar tst v1)) = .ok (v1, none) [] := by decide +kernel

/-! encode_test.go:15-65 -/
example : mar (.basic .u64) (42 : UInt64) = .ok none [0x2a, 0, 0, 0, 0, 0, 0, 0] := by decide +kernel
def encStruct : Ty := .struct (F (.basic .u64) (Fopt (.ptr (.basic .u64)) (Fopt (.ptr (.basic .u64)) .nil)))
example : mar encStruct ((42 : UInt64), (none : Option UInt64), some (42 : UInt64), ()) =
    .ok none (hex! "2a0000000000000000012a00000000000000") := by decide +kernel
example : mar (.slice (.basic .u64)) (some [42, 43, 0] : Option (List UInt64)) =
    .ok none (hex! "032a000000000000002b000000000000000000000000000000") := by decide +kernel
example : mar (.array 3 (.basic .u64)) ([42, 43, 0] : List UInt64) =
    .ok none (hex! "2a000000000000002b000000000000000000000000000000") := by decide +kernel

end Verif.Vectors
