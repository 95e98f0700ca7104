import Verif.Model.JsonChain
import Verif.Model.TimeText
import Verif.Model.Ripemd
import Verif.Model.Sha2
import Verif.Vectors.Abi
/-! # Test vectors of pkg/chain, pkg/base58 and pkg/ripemd160

The expectations of the test files of these packages, evaluated on the model: tests of the model, not proofs of properties. `ABICoding` and `JSONCoding`
(internal/assert) are one example for each direction. Left out: `TestMillionA`. -/
namespace Verif.Vectors

def okVal {α β : Type} (f : α → β) : Pan (α × JErr) → Option β
  | .val (v, .ok) => some (f v)
  | _ => none

/-! name_test.go:12-23 -/
example : newName [] = 0 ∧ Name.string 0 = [] := by decide +kernel
example : Name.string 14595364149838066048 = txt! "teamgreymass" ∧ newName (txt! "teamgreymass") = 14595364149838066048 := by decide +kernel
/- "invålid" in UTF-8 -/
example : Name.string (newName (txt! "inv" ++ [0xc3, 0xa5] ++ txt! "lid")) = txt! "inv..lid" := by decide +kernel
example : Name.string (newName (txt! "overflowmyname")) = txt! "overflowmyna2" := by decide +kernel
example : jsonMarshal (.text .name) false (14595364149838066048 : UInt64) = .val (txt! "\"teamgreymass\"") := by decide +kernel
example : okVal (fun x : UInt64 => x) (jsonUnmarshal goSha256 (.text .name) (TextTy.zero .name) (txt! "\"teamgreymass\"")) = some 14595364149838066048 := by decide +kernel
example : (encode (.chain .name) (14595364149838066048 : UInt64)).run = .ok none (hex! "80b1915e5d268dca") := by decide +kernel
example : (decode (.chain .name) (ChainTy.zero .name)).run (hex! "80b1915e5d268dca") = .ok ((14595364149838066048 : UInt64), none) [] := by decide +kernel

/-! symbol_test.go:10-33 -/
example : newSymbolFromString (txt! "4,BEZOS") = (91600282010116, none) := by decide +kernel
example : Symbol.name 91600282010116 = txt! "BEZOS" ∧ Symbol.decimals 91600282010116 = 4 ∧ Symbol.precision 91600282010116 = 10000 ∧
    Symbol.code 91600282010116 = 357813601602 := by decide +kernel
example : (newSymbolFromString (txt! "MO")).2 ≠ none ∧ (newSymbolFromString (txt! "??")).2 ≠ none ∧ (newSymbolFromString (txt! "-1,XYZ")).2 ≠ none ∧
    (newSymbolFromString (txt! "JERFERY,BERSOS")).2 ≠ none := by decide +kernel
example : (encode (.chain .symbol) (91600282010116 : UInt64)).run = .ok none (hex! "0442455a4f530000") := by decide +kernel
example : (decode (.chain .symbol) (ChainTy.zero .symbol)).run (hex! "0442455a4f530000") = .ok ((91600282010116 : UInt64), none) [] := by decide +kernel
example : jsonMarshal (.text .symbol) false (91600282010116 : UInt64) = .val (txt! "\"4,BEZOS\"") := by decide +kernel
example : okVal (fun x : UInt64 => x) (jsonUnmarshal goSha256 (.text .symbol) (TextTy.zero .symbol) (txt! "\"4,BEZOS\"")) = some 91600282010116 := by decide +kernel
example : (encode (.chain .symbolCode) (357813601602 : UInt64)).run = .ok none (hex! "42455a4f53000000") := by decide +kernel
example : (decode (.chain .symbolCode) (ChainTy.zero .symbolCode)).run (hex! "42455a4f53000000") = .ok ((357813601602 : UInt64), none) [] := by decide +kernel
example : jsonMarshal (.text .symbolCode) false (357813601602 : UInt64) = .val (txt! "\"BEZOS\"") := by decide +kernel
example : okVal (fun x : UInt64 => x) (jsonUnmarshal goSha256 (.text .symbolCode) (TextTy.zero .symbolCode) (txt! "\"BEZOS\"")) = some 357813601602 := by decide +kernel

/-! asset_test.go:12-66 -/
example : ∃ a, newAssetFromString (txt! "0.42 BONK") = (some a, none) ∧ a.value = 42 ∧ a.symbol = 323436364290 ∧ Symbol.name a.symbol = txt! "BONK" ∧ Symbol.decimals a.symbol = 2 ∧ a.string = .val (txt! "0.42 BONK") := by
  refine ⟨((newAssetFromString (txt! "0.42 BONK")).1.getD ⟨0, 0⟩), ?_⟩; decide +kernel
example : ∃ a, newAssetFromString (txt! "-1.234567890 TEST") = (some a, none) ∧  a.string = .val (txt! "-1.234567890 TEST") := by
  refine ⟨((newAssetFromString (txt! "-1.234567890 TEST")).1.getD ⟨0, 0⟩), ?_⟩; decide +kernel
example : jsonMarshal (.text .asset) false (⟨42, 323436364290⟩ : Asset) = .val (txt! "\"0.42 BONK\"") := by decide +kernel
example : okVal (fun x : Asset => x) (jsonUnmarshal goSha256 (.text .asset) (TextTy.zero .asset) (txt! "\"0.42 BONK\"")) = some ⟨42, 323436364290⟩ := by decide +kernel
example : (encode (.chain .asset) (⟨42, 323436364290⟩ : Asset)).run = .ok none (hex! "2a0000000000000002424f4e4b000000") := by decide +kernel
example : (decode (.chain .asset) (ChainTy.zero .asset)).run (hex! "2a0000000000000002424f4e4b000000") = .ok ((⟨42, 323436364290⟩ : Asset), none) [] := by decide +kernel
example : (newAssetFromString (txt! "1 muu")).2 ≠ none ∧ (newAssetFromString (txt! " BAR")).2 ≠ none ∧ (newAssetFromString (txt! "1")).2 ≠ none := by
  decide +kernel
example : (encode (.chain .extendedAsset) (⟨⟨42, 323436364290⟩, newName (txt! "scout")⟩ : ExtendedAsset)).run = .ok none (hex! "2a0000000000000002424f4e4b0000000000000080ac29c2") := by decide +kernel
example : (decode (.chain .extendedAsset) (ChainTy.zero .extendedAsset)).run (hex! "2a0000000000000002424f4e4b0000000000000080ac29c2") = .ok ((⟨⟨42, 323436364290⟩, newName (txt! "scout")⟩ : ExtendedAsset), none) [] := by decide +kernel
example : jsonMarshal extendedAssetTy true (⟨42, 323436364290⟩, newName (txt! "scout"), ()) = .val (txt! "{\"quantity\":\"0.42 BONK\",\"contract\":\"scout\"}") := by decide +kernel
example : ∃ a, newAssetFromString (txt! "1.0000 EOS") = (some a, none) ∧ a.value = 10000 ∧ Symbol.decimals a.symbol = 4 ∧ Symbol.precision a.symbol = 10000 ∧ a.string = .val (txt! "1.0000 EOS") := by
  refine ⟨((newAssetFromString (txt! "1.0000 EOS")).1.getD ⟨0, 0⟩), ?_⟩; decide +kernel
example : ∃ a, newAssetFromString (txt! "34.0303 EOS") = (some a, none) ∧ a.value = 340303 ∧ Symbol.decimals a.symbol = 4 ∧ Symbol.precision a.symbol = 10000 ∧ a.string = .val (txt! "34.0303 EOS") := by
  refine ⟨((newAssetFromString (txt! "34.0303 EOS")).1.getD ⟨0, 0⟩), ?_⟩; decide +kernel
example : ∃ a, newAssetFromString (txt! "1.123456789012345678 ABCDEFG") = (some a, none) ∧ a.value = 1123456789012345678 ∧ Symbol.decimals a.symbol = 18 ∧ Symbol.precision a.symbol = 1000000000000000000 ∧ a.string = .val (txt! "1.123456789012345678 ABCDEFG") := by
  refine ⟨((newAssetFromString (txt! "1.123456789012345678 ABCDEFG")).1.getD ⟨0, 0⟩), ?_⟩; decide +kernel

/-! blob_test.go:11-25, bytes_test.go:10-15 -/
example : (encode (.chain .blob) (some [0xbe, 0xef, 0xfa, 0xce] : Option Bytes)).run = .ok none (hex! "04beefface") := by decide +kernel
example : (decode (.chain .blob) (ChainTy.zero .blob)).run (hex! "04beefface") = .ok ((some [0xbe, 0xef, 0xfa, 0xce] : Option Bytes), none) [] := by decide +kernel
example : jsonMarshal (.text .blob) false (some [0xbe, 0xef, 0xfa, 0xce] : Option Bytes) = .val (txt! "\"vu/6zg==\"") := by decide +kernel
example : okVal (fun x : Option Bytes => x) (jsonUnmarshal goSha256 (.text .blob) (TextTy.zero .blob) (txt! "\"vu/6zg==\"")) = some (some [0xbe, 0xef, 0xfa, 0xce]) := by decide +kernel
example : okVal (fun x : Option Bytes => x) (jsonUnmarshal goSha256 (.text .blob) (none : Option Bytes) (txt! "\"vu/6zg=\"")) = some (some [0xbe, 0xef, 0xfa, 0xce]) := by decide +kernel
example : okVal (fun x : Option Bytes => x) (jsonUnmarshal goSha256 (.text .blob) (none : Option Bytes) (txt! "\"vu/6zg\"")) = some (some [0xbe, 0xef, 0xfa, 0xce]) := by decide +kernel
example : (encode (.chain .bytes) (some [0xbe, 0xef, 0xfa, 0xce] : Option Bytes)).run = .ok none (hex! "04beefface") := by decide +kernel
example : (decode (.chain .bytes) (ChainTy.zero .bytes)).run (hex! "04beefface") = .ok ((some [0xbe, 0xef, 0xfa, 0xce] : Option Bytes), none) [] := by decide +kernel
example : jsonMarshal (.text .bytes) false (some [0xbe, 0xef, 0xfa, 0xce] : Option Bytes) = .val (txt! "\"beefface\"") := by decide +kernel
example : okVal (fun x : Option Bytes => x) (jsonUnmarshal goSha256 (.text .bytes) (TextTy.zero .bytes) (txt! "\"beefface\"")) = some (some [0xbe, 0xef, 0xfa, 0xce]) := by decide +kernel

/-! checksum_test.go:10-32 -/
example : checksum160Digest (txt! "hello world") = .val (hex! "98c615784ccb5fe5936fbc0cbe9dfdb408d92f0f") := by decide +kernel
example : checksum256Digest (txt! "hello world") = hex! "b94d27b9934d3e08a52e52d7da7dabfac484efe37a5380ee9088f7ace2efcde9" := by decide +kernel
example : checksum512Digest (txt! "hello world") =
    hex! "309ecc489c12d6eb4cc40f50c902f2b4d0ed77ee511a7c7a9bcd3ca86d4cd86f989dd35bc5ff499670da34255b45b0cfd830e81f605dcf7dc5542e93ae9cd76f" := by decide +kernel
example : (encode (.chain .checksum160) (hex! "98c615784ccb5fe5936fbc0cbe9dfdb408d92f0f" : Bytes)).run = .ok none (hex! "98c615784ccb5fe5936fbc0cbe9dfdb408d92f0f") := by decide +kernel
example : (decode (.chain .checksum160) (ChainTy.zero .checksum160)).run (hex! "98c615784ccb5fe5936fbc0cbe9dfdb408d92f0f") = .ok ((hex! "98c615784ccb5fe5936fbc0cbe9dfdb408d92f0f" : Bytes), none) [] := by decide +kernel
example : jsonMarshal (.text .checksum160) false (hex! "98c615784ccb5fe5936fbc0cbe9dfdb408d92f0f" : Bytes) = .val (txt! "\"98c615784ccb5fe5936fbc0cbe9dfdb408d92f0f\"") := by decide +kernel
example : okVal (fun x : Bytes => x) (jsonUnmarshal goSha256 (.text .checksum160) (TextTy.zero .checksum160) (txt! "\"98c615784ccb5fe5936fbc0cbe9dfdb408d92f0f\"")) = some (hex! "98c615784ccb5fe5936fbc0cbe9dfdb408d92f0f") := by decide +kernel
example : (encode (.chain .checksum256) (hex! "b94d27b9934d3e08a52e52d7da7dabfac484efe37a5380ee9088f7ace2efcde9" : Bytes)).run = .ok none (hex! "b94d27b9934d3e08a52e52d7da7dabfac484efe37a5380ee9088f7ace2efcde9") := by decide +kernel
example : (decode (.chain .checksum256) (ChainTy.zero .checksum256)).run (hex! "b94d27b9934d3e08a52e52d7da7dabfac484efe37a5380ee9088f7ace2efcde9") = .ok ((hex! "b94d27b9934d3e08a52e52d7da7dabfac484efe37a5380ee9088f7ace2efcde9" : Bytes), none) [] := by decide +kernel
example : jsonMarshal (.text .checksum256) false (hex! "b94d27b9934d3e08a52e52d7da7dabfac484efe37a5380ee9088f7ace2efcde9" : Bytes) = .val (txt! "\"b94d27b9934d3e08a52e52d7da7dabfac484efe37a5380ee9088f7ace2efcde9\"") := by decide +kernel
example : okVal (fun x : Bytes => x) (jsonUnmarshal goSha256 (.text .checksum256) (TextTy.zero .checksum256) (txt! "\"b94d27b9934d3e08a52e52d7da7dabfac484efe37a5380ee9088f7ace2efcde9\"")) = some (hex! "b94d27b9934d3e08a52e52d7da7dabfac484efe37a5380ee9088f7ace2efcde9") := by decide +kernel
example : (encode (.chain .checksum512) (hex! "309ecc489c12d6eb4cc40f50c902f2b4d0ed77ee511a7c7a9bcd3ca86d4cd86f989dd35bc5ff499670da34255b45b0cfd830e81f605dcf7dc5542e93ae9cd76f" : Bytes)).run = .ok none (hex! "309ecc489c12d6eb4cc40f50c902f2b4d0ed77ee511a7c7a9bcd3ca86d4cd86f989dd35bc5ff499670da34255b45b0cfd830e81f605dcf7dc5542e93ae9cd76f") := by decide +kernel
example : (decode (.chain .checksum512) (ChainTy.zero .checksum512)).run (hex! "309ecc489c12d6eb4cc40f50c902f2b4d0ed77ee511a7c7a9bcd3ca86d4cd86f989dd35bc5ff499670da34255b45b0cfd830e81f605dcf7dc5542e93ae9cd76f") = .ok ((hex! "309ecc489c12d6eb4cc40f50c902f2b4d0ed77ee511a7c7a9bcd3ca86d4cd86f989dd35bc5ff499670da34255b45b0cfd830e81f605dcf7dc5542e93ae9cd76f" : Bytes), none) [] := by decide +kernel
example : jsonMarshal (.text .checksum512) false (hex! "309ecc489c12d6eb4cc40f50c902f2b4d0ed77ee511a7c7a9bcd3ca86d4cd86f989dd35bc5ff499670da34255b45b0cfd830e81f605dcf7dc5542e93ae9cd76f" : Bytes) = .val (txt! "\"309ecc489c12d6eb4cc40f50c902f2b4d0ed77ee511a7c7a9bcd3ca86d4cd86f989dd35bc5ff499670da34255b45b0cfd830e81f605dcf7dc5542e93ae9cd76f\"") := by decide +kernel
example : okVal (fun x : Bytes => x) (jsonUnmarshal goSha256 (.text .checksum512) (TextTy.zero .checksum512) (txt! "\"309ecc489c12d6eb4cc40f50c902f2b4d0ed77ee511a7c7a9bcd3ca86d4cd86f989dd35bc5ff499670da34255b45b0cfd830e81f605dcf7dc5542e93ae9cd76f\"")) = some (hex! "309ecc489c12d6eb4cc40f50c902f2b4d0ed77ee511a7c7a9bcd3ca86d4cd86f989dd35bc5ff499670da34255b45b0cfd830e81f605dcf7dc5542e93ae9cd76f") := by decide +kernel

/-! numbers_test.go:12-136 -/
example : newUint128FromString (txt! "340282366920938463463374607431768211455") = (⟨18446744073709551615, 18446744073709551615⟩, none) := by decide +kernel
example : jsonMarshal (.text .uint128) false (⟨18446744073709551615, 18446744073709551615⟩ : U128) = .val (txt! "\"340282366920938463463374607431768211455\"") := by decide +kernel
example : okVal (fun x : U128 => x) (jsonUnmarshal goSha256 (.text .uint128) (TextTy.zero .uint128) (txt! "\"340282366920938463463374607431768211455\"")) = some ⟨18446744073709551615, 18446744073709551615⟩ := by decide +kernel
example : (encode (.chain .uint128) (⟨18446744073709551615, 18446744073709551615⟩ : U128)).run = .ok none (hex! "ffffffffffffffffffffffffffffffff") := by decide +kernel
example : (decode (.chain .uint128) (ChainTy.zero .uint128)).run (hex! "ffffffffffffffffffffffffffffffff") = .ok ((⟨18446744073709551615, 18446744073709551615⟩ : U128), none) [] := by decide +kernel
example : newUint128FromString (txt! "18446744073709551615") = (⟨18446744073709551615, 0⟩, none) := by decide +kernel
example : jsonMarshal (.text .uint128) false (⟨18446744073709551615, 0⟩ : U128) = .val (txt! "\"18446744073709551615\"") := by decide +kernel
example : okVal (fun x : U128 => x) (jsonUnmarshal goSha256 (.text .uint128) (TextTy.zero .uint128) (txt! "\"18446744073709551615\"")) = some ⟨18446744073709551615, 0⟩ := by decide +kernel
example : (encode (.chain .uint128) (⟨18446744073709551615, 0⟩ : U128)).run = .ok none (hex! "ffffffffffffffff0000000000000000") := by decide +kernel
example : (decode (.chain .uint128) (ChainTy.zero .uint128)).run (hex! "ffffffffffffffff0000000000000000") = .ok ((⟨18446744073709551615, 0⟩ : U128), none) [] := by decide +kernel
example : newUint128FromString (txt! "1") = (⟨1, 0⟩, none) := by decide +kernel
example : jsonMarshal (.text .uint128) false (⟨1, 0⟩ : U128) = .val (txt! "\"1\"") := by decide +kernel
example : okVal (fun x : U128 => x) (jsonUnmarshal goSha256 (.text .uint128) (TextTy.zero .uint128) (txt! "\"1\"")) = some ⟨1, 0⟩ := by decide +kernel
example : (encode (.chain .uint128) (⟨1, 0⟩ : U128)).run = .ok none (hex! "01000000000000000000000000000000") := by decide +kernel
example : (decode (.chain .uint128) (ChainTy.zero .uint128)).run (hex! "01000000000000000000000000000000") = .ok ((⟨1, 0⟩ : U128), none) [] := by decide +kernel
example : newUint128FromString (txt! "0") = (⟨0, 0⟩, none) := by decide +kernel
example : jsonMarshal (.text .uint128) false (⟨0, 0⟩ : U128) = .val (txt! "\"0\"") := by decide +kernel
example : okVal (fun x : U128 => x) (jsonUnmarshal goSha256 (.text .uint128) (TextTy.zero .uint128) (txt! "\"0\"")) = some ⟨0, 0⟩ := by decide +kernel
example : (encode (.chain .uint128) (⟨0, 0⟩ : U128)).run = .ok none (hex! "00000000000000000000000000000000") := by decide +kernel
example : (decode (.chain .uint128) (ChainTy.zero .uint128)).run (hex! "00000000000000000000000000000000") = .ok ((⟨0, 0⟩ : U128), none) [] := by decide +kernel
example : newUint128 1 = .val ⟨1, 0⟩ := by decide +kernel
example : newInt128FromString (txt! "0") = (⟨0, 0⟩, none) := by decide +kernel
example : jsonMarshal (.text .int128) false (⟨0, 0⟩ : U128) = .val (txt! "\"0\"") := by decide +kernel
example : okVal (fun x : U128 => x) (jsonUnmarshal goSha256 (.text .int128) (TextTy.zero .int128) (txt! "\"0\"")) = some ⟨0, 0⟩ := by decide +kernel
example : (encode (.chain .int128) (⟨0, 0⟩ : U128)).run = .ok none (hex! "00000000000000000000000000000000") := by decide +kernel
example : (decode (.chain .int128) (ChainTy.zero .int128)).run (hex! "00000000000000000000000000000000") = .ok ((⟨0, 0⟩ : U128), none) [] := by decide +kernel
example : newInt128FromString (txt! "1") = (⟨1, 0⟩, none) := by decide +kernel
example : jsonMarshal (.text .int128) false (⟨1, 0⟩ : U128) = .val (txt! "\"1\"") := by decide +kernel
example : okVal (fun x : U128 => x) (jsonUnmarshal goSha256 (.text .int128) (TextTy.zero .int128) (txt! "\"1\"")) = some ⟨1, 0⟩ := by decide +kernel
example : (encode (.chain .int128) (⟨1, 0⟩ : U128)).run = .ok none (hex! "01000000000000000000000000000000") := by decide +kernel
example : (decode (.chain .int128) (ChainTy.zero .int128)).run (hex! "01000000000000000000000000000000") = .ok ((⟨1, 0⟩ : U128), none) [] := by decide +kernel
example : newInt128FromString (txt! "-1") = (⟨18446744073709551615, 18446744073709551615⟩, none) := by decide +kernel
example : jsonMarshal (.text .int128) false (⟨18446744073709551615, 18446744073709551615⟩ : U128) = .val (txt! "\"-1\"") := by decide +kernel
example : okVal (fun x : U128 => x) (jsonUnmarshal goSha256 (.text .int128) (TextTy.zero .int128) (txt! "\"-1\"")) = some ⟨18446744073709551615, 18446744073709551615⟩ := by decide +kernel
example : (encode (.chain .int128) (⟨18446744073709551615, 18446744073709551615⟩ : U128)).run = .ok none (hex! "ffffffffffffffffffffffffffffffff") := by decide +kernel
example : (decode (.chain .int128) (ChainTy.zero .int128)).run (hex! "ffffffffffffffffffffffffffffffff") = .ok ((⟨18446744073709551615, 18446744073709551615⟩ : U128), none) [] := by decide +kernel
example : newInt128FromString (txt! "-170141183460469231731687303715884105727") = (⟨1, 9223372036854775808⟩, none) := by decide +kernel
example : jsonMarshal (.text .int128) false (⟨1, 9223372036854775808⟩ : U128) = .val (txt! "\"-170141183460469231731687303715884105727\"") := by decide +kernel
example : okVal (fun x : U128 => x) (jsonUnmarshal goSha256 (.text .int128) (TextTy.zero .int128) (txt! "\"-170141183460469231731687303715884105727\"")) = some ⟨1, 9223372036854775808⟩ := by decide +kernel
example : (encode (.chain .int128) (⟨1, 9223372036854775808⟩ : U128)).run = .ok none (hex! "01000000000000000000000000000080") := by decide +kernel
example : (decode (.chain .int128) (ChainTy.zero .int128)).run (hex! "01000000000000000000000000000080") = .ok ((⟨1, 9223372036854775808⟩ : U128), none) [] := by decide +kernel
example : newInt128FromString (txt! "-18446744073709551615") = (⟨1, 18446744073709551615⟩, none) := by decide +kernel
example : jsonMarshal (.text .int128) false (⟨1, 18446744073709551615⟩ : U128) = .val (txt! "\"-18446744073709551615\"") := by decide +kernel
example : okVal (fun x : U128 => x) (jsonUnmarshal goSha256 (.text .int128) (TextTy.zero .int128) (txt! "\"-18446744073709551615\"")) = some ⟨1, 18446744073709551615⟩ := by decide +kernel
example : (encode (.chain .int128) (⟨1, 18446744073709551615⟩ : U128)).run = .ok none (hex! "0100000000000000ffffffffffffffff") := by decide +kernel
example : (decode (.chain .int128) (ChainTy.zero .int128)).run (hex! "0100000000000000ffffffffffffffff") = .ok ((⟨1, 18446744073709551615⟩ : U128), none) [] := by decide +kernel
example : newInt128FromString (txt! "18446744073709551615") = (⟨18446744073709551615, 0⟩, none) := by decide +kernel
example : jsonMarshal (.text .int128) false (⟨18446744073709551615, 0⟩ : U128) = .val (txt! "\"18446744073709551615\"") := by decide +kernel
example : okVal (fun x : U128 => x) (jsonUnmarshal goSha256 (.text .int128) (TextTy.zero .int128) (txt! "\"18446744073709551615\"")) = some ⟨18446744073709551615, 0⟩ := by decide +kernel
example : (encode (.chain .int128) (⟨18446744073709551615, 0⟩ : U128)).run = .ok none (hex! "ffffffffffffffff0000000000000000") := by decide +kernel
example : (decode (.chain .int128) (ChainTy.zero .int128)).run (hex! "ffffffffffffffff0000000000000000") = .ok ((⟨18446744073709551615, 0⟩ : U128), none) [] := by decide +kernel
example : jsonMarshal JTy.uint64 false (0 : UInt64) = .val (txt! "0") := by decide +kernel
example : okVal (fun x : UInt64 => x) (jsonUnmarshal goSha256 JTy.uint64 (0 : UInt64) (txt! "0")) = some 0 := by decide +kernel
example : jsonMarshal JTy.uint64 false (0xffffffffffffffff : UInt64) = .val (txt! "\"18446744073709551615\"") := by decide +kernel
example : okVal (fun x : UInt64 => x) (jsonUnmarshal goSha256 JTy.uint64 (0 : UInt64) (txt! "\"18446744073709551615\"")) = some 0xffffffffffffffff := by decide +kernel
example : jsonMarshal JTy.uint64 false (0xffffffff : UInt64) = .val (txt! "4294967295") := by decide +kernel
example : okVal (fun x : UInt64 => x) (jsonUnmarshal goSha256 JTy.uint64 (0 : UInt64) (txt! "4294967295")) = some 0xffffffff := by decide +kernel
example : jsonMarshal JTy.uint64 false (4294967296 : UInt64) = .val (txt! "\"4294967296\"") := by decide +kernel
example : okVal (fun x : UInt64 => x) (jsonUnmarshal goSha256 JTy.uint64 (0 : UInt64) (txt! "\"4294967296\"")) = some 4294967296 := by decide +kernel
example : jsonMarshal (.text .float128) false (hex! "00000000000000000000000000000000" : Bytes) = .val (txt! "\"00000000000000000000000000000000\"") := by decide +kernel
example : okVal (fun x : Bytes => x) (jsonUnmarshal goSha256 (.text .float128) (TextTy.zero .float128) (txt! "\"00000000000000000000000000000000\"")) = some (hex! "00000000000000000000000000000000") := by decide +kernel
example : jsonMarshal (.text .float128) false (hex! "12345678abcdef12345678abcdef1234" : Bytes) = .val (txt! "\"12345678abcdef12345678abcdef1234\"") := by decide +kernel
example : okVal (fun x : Bytes => x) (jsonUnmarshal goSha256 (.text .float128) (TextTy.zero .float128) (txt! "\"12345678abcdef12345678abcdef1234\"")) = some (hex! "12345678abcdef12345678abcdef1234") := by decide +kernel
example : jsonMarshal JTy.blockNum false (0 : UInt32) = .val (txt! "0") := by decide +kernel
example : okVal (fun x : UInt32 => x) (jsonUnmarshal goSha256 JTy.blockNum (0 : UInt32) (txt! "0")) = some 0 := by decide +kernel
example : jsonMarshal JTy.blockNum false (4294967295 : UInt32) = .val (txt! "4294967295") := by decide +kernel
example : okVal (fun x : UInt32 => x) (jsonUnmarshal goSha256 JTy.blockNum (0 : UInt32) (txt! "4294967295")) = some 4294967295 := by decide +kernel
example : BlockNum.string 0 = txt! "0000000000" ∧ BlockNum.string 4294967295 = txt! "4294967295" := by decide +kernel

/-! public_key_test.go:10-31, signature_test.go:10-55 -/
example : (encode (.chain .publicKey) (⟨0, hex! "0223e0ae8aacb41b06dc74af1a56b2eb69133f07f7f75bd1d5e53316bff195edf4"⟩ : PubKey)).run = .ok none (hex! "000223e0ae8aacb41b06dc74af1a56b2eb69133f07f7f75bd1d5e53316bff195edf4") := by decide +kernel
example : (decode (.chain .publicKey) (ChainTy.zero .publicKey)).run (hex! "000223e0ae8aacb41b06dc74af1a56b2eb69133f07f7f75bd1d5e53316bff195edf4") = .ok ((⟨0, hex! "0223e0ae8aacb41b06dc74af1a56b2eb69133f07f7f75bd1d5e53316bff195edf4"⟩ : PubKey), none) [] := by decide +kernel
example : jsonMarshal (.text .publicKey) true (⟨0, hex! "0223e0ae8aacb41b06dc74af1a56b2eb69133f07f7f75bd1d5e53316bff195edf4"⟩ : PubKey) = .val (txt! "\"PUB_K1_5AHoNnWetuDhKWSDx3WUf8W7Dg5xjHCMc4yHmmSiaJCFvvAgnB\"") := by decide +kernel
example : okVal (fun x : PubKey => x) (jsonUnmarshal goSha256 (.text .publicKey) (TextTy.zero .publicKey) (txt! "\"PUB_K1_5AHoNnWetuDhKWSDx3WUf8W7Dg5xjHCMc4yHmmSiaJCFvvAgnB\"")) = some ⟨0, hex! "0223e0ae8aacb41b06dc74af1a56b2eb69133f07f7f75bd1d5e53316bff195edf4"⟩ := by decide +kernel
example : (encode (.chain .publicKey) (⟨2, hex! "0220b9dab512e892392a44a9f41f9433c9fbd80db864e9df5889c2407db3acbb9f010d6b656f73642e696e76616c6964"⟩ : PubKey)).run = .ok none (hex! "020220b9dab512e892392a44a9f41f9433c9fbd80db864e9df5889c2407db3acbb9f010d6b656f73642e696e76616c6964") := by decide +kernel
example : (decode (.chain .publicKey) (ChainTy.zero .publicKey)).run (hex! "020220b9dab512e892392a44a9f41f9433c9fbd80db864e9df5889c2407db3acbb9f010d6b656f73642e696e76616c6964") = .ok ((⟨2, hex! "0220b9dab512e892392a44a9f41f9433c9fbd80db864e9df5889c2407db3acbb9f010d6b656f73642e696e76616c6964"⟩ : PubKey), none) [] := by decide +kernel
example : jsonMarshal (.text .publicKey) true (⟨2, hex! "0220b9dab512e892392a44a9f41f9433c9fbd80db864e9df5889c2407db3acbb9f010d6b656f73642e696e76616c6964"⟩ : PubKey) = .val (txt! "\"PUB_WA_WdCPfafVNxVMiW5ybdNs83oWjenQXvSt1F49fg9mv7qrCiRwHj5b38U3ponCFWxQTkDsMC\"") := by decide +kernel
example : okVal (fun x : PubKey => x) (jsonUnmarshal goSha256 (.text .publicKey) (TextTy.zero .publicKey) (txt! "\"PUB_WA_WdCPfafVNxVMiW5ybdNs83oWjenQXvSt1F49fg9mv7qrCiRwHj5b38U3ponCFWxQTkDsMC\"")) = some ⟨2, hex! "0220b9dab512e892392a44a9f41f9433c9fbd80db864e9df5889c2407db3acbb9f010d6b656f73642e696e76616c6964"⟩ := by decide +kernel
example : (encode (.chain .signature) (⟨0, hex! "205150a67288c3b393fdba9061b05019c54b12bdac295fc83bebad7cd63c7bb67d5cb8cc220564da006240a58419f64d06a5c6e1fc62889816a6c3dfdd231ed389"⟩ : Sig)).run = .ok none (hex! "00205150a67288c3b393fdba9061b05019c54b12bdac295fc83bebad7cd63c7bb67d5cb8cc220564da006240a58419f64d06a5c6e1fc62889816a6c3dfdd231ed389") := by decide +kernel
example : (decode (.chain .signature) (ChainTy.zero .signature)).run (hex! "00205150a67288c3b393fdba9061b05019c54b12bdac295fc83bebad7cd63c7bb67d5cb8cc220564da006240a58419f64d06a5c6e1fc62889816a6c3dfdd231ed389") = .ok ((⟨0, hex! "205150a67288c3b393fdba9061b05019c54b12bdac295fc83bebad7cd63c7bb67d5cb8cc220564da006240a58419f64d06a5c6e1fc62889816a6c3dfdd231ed389"⟩ : Sig), none) [] := by decide +kernel
example : jsonMarshal (.text .signature) true (⟨0, hex! "205150a67288c3b393fdba9061b05019c54b12bdac295fc83bebad7cd63c7bb67d5cb8cc220564da006240a58419f64d06a5c6e1fc62889816a6c3dfdd231ed389"⟩ : Sig) = .val (txt! "\"SIG_K1_KfPLgpw35iX8nfDzhbcmSBCr7nEGNEYXgmmempQspDJYBCKuAEs5rm3s4ZuLJY428Ca8ZhvR2Dkwu118y3NAoMDxhicRj9\"") := by decide +kernel
example : okVal (fun x : Sig => x) (jsonUnmarshal goSha256 (.text .signature) (TextTy.zero .signature) (txt! "\"SIG_K1_KfPLgpw35iX8nfDzhbcmSBCr7nEGNEYXgmmempQspDJYBCKuAEs5rm3s4ZuLJY428Ca8ZhvR2Dkwu118y3NAoMDxhicRj9\"")) = some ⟨0, hex! "205150a67288c3b393fdba9061b05019c54b12bdac295fc83bebad7cd63c7bb67d5cb8cc220564da006240a58419f64d06a5c6e1fc62889816a6c3dfdd231ed389"⟩ := by decide +kernel
example : (encode (.chain .signature) (⟨2, hex! "20d9132bbdb219e4e2d99af9c507e3597f86b615814f36672d501034861792bbcf21a46d1a2eb12bace4a29100b942f987494f3aefc8efb2d5af4d4d8de3e0871525aa14905af60ca17a1bb80e0cf9c3b46908a0f14f72567a2f140c3a3bd2ef074c010000006d737b226f726967696e223a2268747470733a2f2f6b656f73642e696e76616c6964222c2274797065223a22776562617574686e2e676574222c226368616c6c656e6765223a226f69567235794848304a4336453962446675347142735a6a527a70416c5131505a50436e5974766850556b3d227d"⟩ : Sig)).run = .ok none (hex! "0220d9132bbdb219e4e2d99af9c507e3597f86b615814f36672d501034861792bbcf21a46d1a2eb12bace4a29100b942f987494f3aefc8efb2d5af4d4d8de3e0871525aa14905af60ca17a1bb80e0cf9c3b46908a0f14f72567a2f140c3a3bd2ef074c010000006d737b226f726967696e223a2268747470733a2f2f6b656f73642e696e76616c6964222c2274797065223a22776562617574686e2e676574222c226368616c6c656e6765223a226f69567235794848304a4336453962446675347142735a6a527a70416c5131505a50436e5974766850556b3d227d") := by decide +kernel
example : (decode (.chain .signature) (ChainTy.zero .signature)).run (hex! "0220d9132bbdb219e4e2d99af9c507e3597f86b615814f36672d501034861792bbcf21a46d1a2eb12bace4a29100b942f987494f3aefc8efb2d5af4d4d8de3e0871525aa14905af60ca17a1bb80e0cf9c3b46908a0f14f72567a2f140c3a3bd2ef074c010000006d737b226f726967696e223a2268747470733a2f2f6b656f73642e696e76616c6964222c2274797065223a22776562617574686e2e676574222c226368616c6c656e6765223a226f69567235794848304a4336453962446675347142735a6a527a70416c5131505a50436e5974766850556b3d227d") = .ok ((⟨2, hex! "20d9132bbdb219e4e2d99af9c507e3597f86b615814f36672d501034861792bbcf21a46d1a2eb12bace4a29100b942f987494f3aefc8efb2d5af4d4d8de3e0871525aa14905af60ca17a1bb80e0cf9c3b46908a0f14f72567a2f140c3a3bd2ef074c010000006d737b226f726967696e223a2268747470733a2f2f6b656f73642e696e76616c6964222c2274797065223a22776562617574686e2e676574222c226368616c6c656e6765223a226f69567235794848304a4336453962446675347142735a6a527a70416c5131505a50436e5974766850556b3d227d"⟩ : Sig), none) [] := by decide +kernel
example : jsonMarshal (.text .signature) true (⟨2, hex! "20d9132bbdb219e4e2d99af9c507e3597f86b615814f36672d501034861792bbcf21a46d1a2eb12bace4a29100b942f987494f3aefc8efb2d5af4d4d8de3e0871525aa14905af60ca17a1bb80e0cf9c3b46908a0f14f72567a2f140c3a3bd2ef074c010000006d737b226f726967696e223a2268747470733a2f2f6b656f73642e696e76616c6964222c2274797065223a22776562617574686e2e676574222c226368616c6c656e6765223a226f69567235794848304a4336453962446675347142735a6a527a70416c5131505a50436e5974766850556b3d227d"⟩ : Sig) = .val (txt! "\"SIG_WA_2AAAuLJS3pLPgkQQPqLsehL6VeRBaAZS7NYM91UYRUrSAEfUvzKN7DCSwhjsDqe74cZNWKUUGAHGG8ddSA7cvUxChbfKxLSrDCpwe6MVUqz4PDdyCt5tXhEJmKekxG1o1ucY3LVj8Vi9rRbzAkKPCzWqC8cPcUtpLHNG8qUKkQrN4Xuwa9W8rsBiUKwZv1ToLyVhLrJe42pvHYBXicp4E8qec5E4m6SX11KuXERFcV48Mhiie2NyaxdtNtNzQ5XZ5hjBkxRujqejpF4SNHvdAGKRBbvhkiPLA25FD3xoCbrN26z72\"") := by decide +kernel
example : okVal (fun x : Sig => x) (jsonUnmarshal goSha256 (.text .signature) (TextTy.zero .signature) (txt! "\"SIG_WA_2AAAuLJS3pLPgkQQPqLsehL6VeRBaAZS7NYM91UYRUrSAEfUvzKN7DCSwhjsDqe74cZNWKUUGAHGG8ddSA7cvUxChbfKxLSrDCpwe6MVUqz4PDdyCt5tXhEJmKekxG1o1ucY3LVj8Vi9rRbzAkKPCzWqC8cPcUtpLHNG8qUKkQrN4Xuwa9W8rsBiUKwZv1ToLyVhLrJe42pvHYBXicp4E8qec5E4m6SX11KuXERFcV48Mhiie2NyaxdtNtNzQ5XZ5hjBkxRujqejpF4SNHvdAGKRBbvhkiPLA25FD3xoCbrN26z72\"")) = some ⟨2, hex! "20d9132bbdb219e4e2d99af9c507e3597f86b615814f36672d501034861792bbcf21a46d1a2eb12bace4a29100b942f987494f3aefc8efb2d5af4d4d8de3e0871525aa14905af60ca17a1bb80e0cf9c3b46908a0f14f72567a2f140c3a3bd2ef074c010000006d737b226f726967696e223a2268747470733a2f2f6b656f73642e696e76616c6964222c2274797065223a22776562617574686e2e676574222c226368616c6c656e6765223a226f69567235794848304a4336453962446675347142735a6a527a70416c5131505a50436e5974766850556b3d227d"⟩ := by decide +kernel

/-! time_test.go:10-26 -/
example : TimePoint.string 0 = txt! "1970-01-01T00:00:00.000" := by decide +kernel
example : newTimePointFromString (txt! "2018-02-21T23:58:00.000") = (1519257480000000, none) ∧
    newTimePointFromString (txt! "2018-02-21T23:58:00.000Z") = (1519257480000000, none) := by decide +kernel
example : (encode (.chain .timePoint) (1519257492222000 : Int64)).run = .ok none (hex! "307025b3c1650500") := by decide +kernel
example : (decode (.chain .timePoint) (ChainTy.zero .timePoint)).run (hex! "307025b3c1650500") = .ok ((1519257492222000 : Int64), none) [] := by decide +kernel
example : jsonMarshal (.text .timePoint) false (1519257492222000 : Int64) = .val (txt! "\"2018-02-21T23:58:12.222\"") := by decide +kernel
example : okVal (fun x : Int64 => x) (jsonUnmarshal goSha256 (.text .timePoint) (TextTy.zero .timePoint) (txt! "\"2018-02-21T23:58:12.222\"")) = some 1519257492222000 := by decide +kernel
example : (encode (.chain .timePointSec) (1235 : UInt32)).run = .ok none (hex! "d3040000") := by decide +kernel
example : (decode (.chain .timePointSec) (ChainTy.zero .timePointSec)).run (hex! "d3040000") = .ok ((1235 : UInt32), none) [] := by decide +kernel
example : jsonMarshal (.text .timePointSec) false (1235 : UInt32) = .val (txt! "\"1970-01-01T00:20:35\"") := by decide +kernel
example : okVal (fun x : UInt32 => x) (jsonUnmarshal goSha256 (.text .timePointSec) (TextTy.zero .timePointSec) (txt! "\"1970-01-01T00:20:35\"")) = some 1235 := by decide +kernel
example : (encode (.chain .blockTimestamp) (1145145361 : UInt32)).run = .ok none (hex! "11884144") := by decide +kernel
example : (decode (.chain .blockTimestamp) (ChainTy.zero .blockTimestamp)).run (hex! "11884144") = .ok ((1145145361 : UInt32), none) [] := by decide +kernel
example : jsonMarshal (.text .blockTimestamp) false (1145145361 : UInt32) = .val (txt! "\"2018-02-21T23:58:00.500\"") := by decide +kernel
example : okVal (fun x : UInt32 => x) (jsonUnmarshal goSha256 (.text .blockTimestamp) (TextTy.zero .blockTimestamp) (txt! "\"2018-02-21T23:58:00.500\"")) = some 1145145361 := by decide +kernel
example : jsonMarshal (.text .blockTimestamp) false (1145145362 : UInt32) = .val (txt! "\"2018-02-21T23:58:01.000\"") := by decide +kernel
example : okVal (fun x : UInt32 => x) (jsonUnmarshal goSha256 (.text .blockTimestamp) (TextTy.zero .blockTimestamp) (txt! "\"2018-02-21T23:58:01.000\"")) = some 1145145362 := by decide +kernel

/-! action_test.go:10-39 -/
def action : Action := ⟨newName (txt! "eosio.token"), newName (txt! "transfer"), [⟨newName (txt! "alice"), newName (txt! "active")⟩], [0xbe, 0xef, 0xfa, 0xce]⟩
example : (encode (.chain .action) (action : Action)).run = .ok none (hex! "00a6823403ea3055000000572d3ccdcd010000000000855c3400000000a8ed323204beefface") := by decide +kernel
example : (decode (.chain .action) (ChainTy.zero .action)).run (hex! "00a6823403ea3055000000572d3ccdcd010000000000855c3400000000a8ed323204beefface") = .ok ((action : Action), none) [] := by decide +kernel
example : jsonMarshal actionTy false (newName (txt! "eosio.token"), newName (txt! "transfer"),
    (some [(newName (txt! "alice"), newName (txt! "active"), ())] : Option (List permissionLevelTy.Val)), (some [0xbe, 0xef, 0xfa, 0xce] : Option Bytes), ()) =
    .val (txt! "{\"account\":\"eosio.token\",\"name\":\"transfer\",\"authorization\":[{\"actor\":\"alice\",\"permission\":\"active\"}],\"data\":\"beefface\"}") := by decide +kernel
example : okVal Action.ofJson (jsonUnmarshal goSha256 actionTy actionTy.zero
    (txt! "\n\t\t{\n\t\t\t\"account\": \"eosio.token\",\n\t\t\t\"name\": \"transfer\",\n\t\t\t\"authorization\": [\n\t\t\t\t{\n\t\t\t\t\t\"actor\": \"alice\",\n\t\t\t\t\t\"permission\": \"active\"\n\t\t\t\t}\n\t\t\t],\n\t\t\t\"data\": \"beefface\"\n\t\t}\n\t")) = some action := by decide +kernel

/-! transaction_test.go:10-83 -/
def th : TxHeader := ⟨1234567890, 11, 22, 33, 44, 55⟩
def tx : Transaction := ⟨th, [], [⟨newName (txt! "foo"), newName (txt! "bar"), [⟨newName (txt! "baz"), newName (txt! "qux")⟩, ⟨newName (txt! "quux"), newName (txt! "quuz")⟩],
  [0xde, 0xad, 0xbe, 0xef]⟩], []⟩
example : (encode (.chain .transactionHeader) (th : TxHeader)).run = .ok none (hex! "d20296490b0016000000212c37") := by decide +kernel
example : (decode (.chain .transactionHeader) (ChainTy.zero .transactionHeader)).run (hex! "d20296490b0016000000212c37") = .ok ((th : TxHeader), none) [] := by decide +kernel
example : (encode (.chain .transaction) (tx : Transaction)).run = .ok none (hex! "d20296490b0016000000212c370001000000000000285d000000000000ae3902000000000000be39000000000000bab60000000000d0b5b60000000000f0b5b604deadbeef00") := by decide +kernel
example : (decode (.chain .transaction) (ChainTy.zero .transaction)).run (hex! "d20296490b0016000000212c370001000000000000285d000000000000ae3902000000000000be39000000000000bab60000000000d0b5b60000000000f0b5b604deadbeef00") = .ok ((tx : Transaction), none) [] := by decide +kernel
example : okVal Transaction.ofJson (jsonUnmarshal goSha256 transactionTy transactionTy.zero
    (txt! "\n\t\t{\n\t\t\t\"expiration\": \"2009-02-13T23:31:30\",\n\t\t\t\"ref_block_num\": 11,\n\t\t\t\"ref_block_prefix\": 22,\n\t\t\t\"max_net_usage_words\": 33,\n\t\t\t\"max_cpu_usage_ms\": 44,\n\t\t\t\"delay_sec\": 55,\n\t\t\t\"context_free_actions\": [],\n\t\t\t\"actions\": [\n\t\t\t\t{\n\t\t\t\t\t\"account\": \"foo\",\n\t\t\t\t\t\"name\": \"bar\",\n\t\t\t\t\t\"authorization\": [\n\t\t\t\t\t\t{\n\t\t\t\t\t\t\t\"actor\": \"baz\",\n\t\t\t\t\t\t\t\"permission\": \"qux\"\n\t\t\t\t\t\t},\n\t\t\t\t\t\t{\n\t\t\t\t\t\t\t\"actor\": \"quux\",\n\t\t\t\t\t\t\t\"permission\": \"quuz\"\n\t\t\t\t\t\t}\n\t\t\t\t\t],\n\t\t\t\t\t\"data\": \"deadbeef\"\n\t\t\t\t}\n\t\t\t],\n\t\t\t\"transaction_extensions\": []\n\t\t}\n\t")) = some tx := by decide +kernel

/-! abi_test.go:11-251 -/
def tokenAbiText : Bytes := txt!
  "\n{\n    \"version\": \"eosio::abi/1.1\",\n    \"types\": [],\n    \"structs\": [\n        {\n            \"name\": \"account\",\n            \"base\": \"\",\n            \"fields\": [\n                {\n                    \"name\": \"balance\",\n                    \"type\": \"asset\"\n                }\n            ]\n        },\n        {\n            \"name\": \"banana\",\n            \"base\": \"\",\n            \"fields\": [\n                {\n                    \"name\": \"moo\",\n                    \"type\": \"name\"\n                }\n            ]\n        },\n        {\n            \"name\": \"create\",\n            \"base\": \"\",\n            \"fields\": [\n                {\n                    \"name\": \"issuer\",\n                    \"type\": \"name\"\n                },\n                {\n                    \"name\": \"maximum_supply\",\n                    \"type\": \"asset\"\n                }\n            ]\n        },\n        {\n            \"name\": \"currency_stats\",\n            \"base\": \"\",\n            \"fields\": [\n                {\n                    \"name\": \"supply\",\n                    \"type\": \"asset\"\n                },\n                {\n                    \"name\": \"max_supply\",\n                    \"type\": \"asset\"\n                },\n                {\n                    \"name\": \"issuer\",\n                    \"type\": \"name\"\n                }\n            ]\n        },\n        {\n            \"name\": \"issue\",\n            \"base\": \"\",\n            \"fields\": [\n                {\n                    \"name\": \"to\",\n                    \"type\": \"name\"\n                },\n                {\n                    \"name\": \"quantity\",\n                    \"type\": \"asset\"\n                },\n                {\n                    \"name\": \"memo\",\n                    \"type\": \"string\"\n                }\n            ]\n        },\n        {\n            \"name\": \"open\",\n            \"base\": \"\",\n            \"fields\": [\n                {\n                    \"name\": \"owner\",\n                    \"type\": \"name\"\n                },\n                {\n                    \"name\": \"symbol\",\n                    \"type\": \"symbol\"\n                },\n                {\n                    \"name\": \"ram_payer\",\n                    \"type\": \"name\"\n                }\n            ]\n        },\n        {\n            \"name\": \"megatransfer\",\n            \"base\": \"transfer\",\n            \"fields\": [\n                {\n                    \"name\": \"extra\",\n                    \"type\": \"mega\"\n                },\n\t\t\t\t        {\n                    \"name\": \"extra2\",\n                    \"type\": \"banana[]\"\n                }\n            ]\n        },\n        {\n            \"name\": \"transfer\",\n            \"base\": \"\",\n            \"fields\": [\n                {\n                    \"name\": \"from\",\n                    \"type\": \"name\"\n                },\n                {\n                    \"name\": \"to\",\n                    \"type\": \"name\"\n                },\n                {\n                    \"name\": \"quantity\",\n                    \"type\": \"asset\"\n                },\n                {\n                    \"name\": \"memo\",\n                    \"type\": \"string\"\n                }\n            ]\n        }\n    ],\n    \"actions\": [\n        {\n            \"name\": \"close\",\n            \"type\": \"close\",\n            \"ricardian_contract\": \"\"\n        },\n        {\n            \"name\": \"create\",\n            \"type\": \"create\",\n            \"ricardian_contract\": \"\"\n        },\n        {\n            \"name\": \"issue\",\n            \"type\": \"issue\",\n            \"ricardian_contract\": \"\"\n        },\n        {\n            \"name\": \"open\",\n            \"type\": \"open\",\n            \"ricardian_contract\": \"\"\n        },\n        {\n            \"name\": \"retire\",\n            \"type\": \"retire\",\n            \"ricardian_contract\": \"\"\n        },\n        {\n            \"name\": \"transfer\",\n            \"type\": \"transfer\",\n            \"ricardian_contract\": \"\"\n        }\n    ],\n    \"tables\": [\n        {\n            \"name\": \"accounts\",\n            \"index_type\": \"i64\",\n            \"key_names\": [],\n            \"key_types\": [],\n            \"type\": \"account\"\n        },\n        {\n            \"name\": \"stat\",\n            \"index_type\": \"i64\",\n            \"key_names\": [],\n            \"key_types\": [],\n            \"type\": \"currency_stats\"\n        }\n    ],\n    \"ricardian_clauses\": [],\n    \"variants\": [\n        {\n            \"name\": \"mega\",\n            \"types\": [\"uint64\", \"string\"]\n        }\n    ]\n}\n"
def tokenAbi : Abi where
  version := txt! "eosio::abi/1.1"
  types := []
  structs := [⟨txt! "account", [], [⟨txt! "balance", txt! "asset"⟩]⟩,
    ⟨txt! "banana", [], [⟨txt! "moo", txt! "name"⟩]⟩,
    ⟨txt! "create", [], [⟨txt! "issuer", txt! "name"⟩, ⟨txt! "maximum_supply", txt! "asset"⟩]⟩,
    ⟨txt! "currency_stats", [], [⟨txt! "supply", txt! "asset"⟩, ⟨txt! "max_supply", txt! "asset"⟩, ⟨txt! "issuer", txt! "name"⟩]⟩,
    ⟨txt! "issue", [], [⟨txt! "to", txt! "name"⟩, ⟨txt! "quantity", txt! "asset"⟩, ⟨txt! "memo", txt! "string"⟩]⟩,
    ⟨txt! "open", [], [⟨txt! "owner", txt! "name"⟩, ⟨txt! "symbol", txt! "symbol"⟩, ⟨txt! "ram_payer", txt! "name"⟩]⟩,
    ⟨txt! "megatransfer", txt! "transfer", [⟨txt! "extra", txt! "mega"⟩, ⟨txt! "extra2", txt! "banana[]"⟩]⟩,
    ⟨txt! "transfer", [], [⟨txt! "from", txt! "name"⟩, ⟨txt! "to", txt! "name"⟩, ⟨txt! "quantity", txt! "asset"⟩, ⟨txt! "memo", txt! "string"⟩]⟩]
  actions := [⟨newName (txt! "close"), txt! "close", []⟩, ⟨newName (txt! "create"), txt! "create", []⟩, ⟨newName (txt! "issue"), txt! "issue", []⟩, ⟨newName (txt! "open"), txt! "open", []⟩, ⟨newName (txt! "retire"), txt! "retire", []⟩, ⟨newName (txt! "transfer"), txt! "transfer", []⟩]
  tables := [⟨newName (txt! "accounts"), txt! "i64", [], [], txt! "account"⟩, ⟨newName (txt! "stat"), txt! "i64", [], [], txt! "currency_stats"⟩]
  variants := [⟨txt! "mega", [txt! "uint64", txt! "string"]⟩]
  ricardianClauses := []
  errorMessages := []
  extensions := []
example : okVal Abi.ofJson (jsonUnmarshal goSha256 abiJTy abiJTy.zero tokenAbiText) = some tokenAbi := by decide +kernel
def transferData : Bytes := hex! "000000000000285d000000000000ae39102700000000000004454f53000000000568656c6c6f0103666f6f0180b1915e5d268dca"
def transferValue : AV := .map [(txt! "from", .chain .name (newName (txt! "foo"))), (txt! "to", .chain .name (newName (txt! "bar"))),
  (txt! "quantity", .chain .asset (⟨10000, 0x534f4504⟩ : Asset)), (txt! "memo", .basic .string (txt! "hello")),
  (txt! "extra", .slice [.basic .string (txt! "string"), .basic .string (txt! "foo")]),
  (txt! "extra2", .slice [.map [(txt! "moo", .chain .name (newName (txt! "teamgreymass")))]])]
example : assetA (txt! "1.0000 EOS") = .val ⟨10000, 0x534f4504⟩ := by decide +kernel
example : (tokenAbi.encode 20 (txt! "megatransfer") transferValue).run = .ok none transferData := by decide +kernel
example : (tokenAbi.decode 20 (txt! "megatransfer")).run transferData = .ok (transferValue, none) [] := rfl

/-! base58_test.go:15-90, base58check_test.go:10-72 -/
example : b58CheckDecode goSha256 (txt! "5KQvfsPJ9YvGuVbLRLXVWPNubed6FWvV8yax6cNSJEzB4co3zFu") = .val (hex! "80d25968ebfce6e617bdb839b5a66cfc1fdd051d79a91094f7baceded449f84333", none) := by decide +kernel
example : b58CheckEncode goSha256 (hex! "80d25968ebfce6e617bdb839b5a66cfc1fdd051d79a91094f7baceded449f84333") = .val (txt! "5KQvfsPJ9YvGuVbLRLXVWPNubed6FWvV8yax6cNSJEzB4co3zFu") := by decide +kernel
example : b58Encode (txt! "") = .val (txt! "") := by decide +kernel
example : b58Encode (txt! " ") = .val (txt! "Z") := by decide +kernel
example : b58Encode (txt! "-") = .val (txt! "n") := by decide +kernel
example : b58Encode (txt! "0") = .val (txt! "q") := by decide +kernel
example : b58Encode (txt! "1") = .val (txt! "r") := by decide +kernel
example : b58Encode (txt! "-1") = .val (txt! "4SU") := by decide +kernel
example : b58Encode (txt! "11") = .val (txt! "4k8") := by decide +kernel
example : b58Encode (txt! "abc") = .val (txt! "ZiCa") := by decide +kernel
example : b58Encode (txt! "1234598760") = .val (txt! "3mJr7AoUXx2Wqd") := by decide +kernel
example : b58Encode (txt! "abcdefghijklmnopqrstuvwxyz") = .val (txt! "3yxU3u1igY8WkgtjK92fbJQCd4BZiiT1v25f") := by decide +kernel
example : b58Encode (txt! "00000000000000000000000000000000000000000000000000000000000000") = .val (txt! "3sN2THZeE9Eh9eYrwkvZqNstbHGvrxSAM7gXUXvyFQP8XvQLUqNCS27icwUeDT7ckHm4FUHM2mTVh1vbLmk7y") := by decide +kernel
example : b58Decode (txt! "") = .val (hex! "") := by decide +kernel
example : b58Decode (txt! "2g") = .val (hex! "61") := by decide +kernel
example : b58Decode (txt! "a3gV") = .val (hex! "626262") := by decide +kernel
example : b58Decode (txt! "aPEr") = .val (hex! "636363") := by decide +kernel
example : b58Decode (txt! "2cFupjhnEsSn59qHXstmK2ffpLv2") = .val (hex! "73696d706c792061206c6f6e6720737472696e67") := by decide +kernel
example : b58Decode (txt! "1NS17iag9jJgTHD1VXjvLCEnZuQ3rJDE9L") = .val (hex! "00eb15231dfceb60925886b67d065299925915aeb172c06647") := by decide +kernel
example : b58Decode (txt! "ABnLTmg") = .val (hex! "516b6fcd0f") := by decide +kernel
example : b58Decode (txt! "3SEo3LWLoPntC") = .val (hex! "bf4f89001e670274dd") := by decide +kernel
example : b58Decode (txt! "3EFU7m") = .val (hex! "572e4794") := by decide +kernel
example : b58Decode (txt! "EJDM8drfXA6uyA") = .val (hex! "ecac89cad93923c02321") := by decide +kernel
example : b58Decode (txt! "Rt5zm") = .val (hex! "10c8511e") := by decide +kernel
example : b58Decode (txt! "1111111111") = .val (hex! "00000000000000000000") := by decide +kernel
example : b58Decode (txt! "123456789ABCDEFGHJKLMNPQRSTUVWXYZabcdefghijkmnopqrstuvwxyz") = .val (hex! "000111d38e5fc9071ffcd20b4a763cc9ae4f252bb4e48fd66a835e252ada93ff480d6dd43dc62a641155a5") := by decide +kernel
example : b58Decode (txt! "1cWB5HCBdLjAuqGGReWE3R3CguuwSjw6RHn39s2yuDRTS5NsBgNiFpWgAnEx6VQi8csexkgYw3mdYrMHr8x9i7aEwP8kZ7vccXWqKDvGv3u1GxFKPuAkn8JCPPGDMf3vMMnbzm6Nh9zh1gcNsMvH3ZNLmP5fSG6DGbbi2tuwMWPthr4boWwCxf7ewSgNQeacyozhKDDQQ1qL5fQFUW52QKUZDZ5fw3KXNQJMcNTcaB723LchjeKun7MuGW5qyCBZYzA1KjofN1gYBV3NqyhQJ3Ns746GNuf9N2pQPmHz4xpnSrrfCvy6TVVz5d4PdrjeshsWQwpZsZGzvbdAdN8MKV5QsBDY") = .val (hex! "000102030405060708090a0b0c0d0e0f101112131415161718191a1b1c1d1e1f202122232425262728292a2b2c2d2e2f303132333435363738393a3b3c3d3e3f404142434445464748494a4b4c4d4e4f505152535455565758595a5b5c5d5e5f606162636465666768696a6b6c6d6e6f707172737475767778797a7b7c7d7e7f808182838485868788898a8b8c8d8e8f909192939495969798999a9b9c9d9e9fa0a1a2a3a4a5a6a7a8a9aaabacadaeafb0b1b2b3b4b5b6b7b8b9babbbcbdbebfc0c1c2c3c4c5c6c7c8c9cacbcccdcecfd0d1d2d3d4d5d6d7d8d9dadbdcdddedfe0e1e2e3e4e5e6e7e8e9eaebecedeeeff0f1f2f3f4f5f6f7f8f9fafbfcfdfeff") := by decide +kernel
example : b58Decode (txt! "0") = .val [] := by decide +kernel
example : b58Decode (txt! "O") = .val [] := by decide +kernel
example : b58Decode (txt! "I") = .val [] := by decide +kernel
example : b58Decode (txt! "l") = .val [] := by decide +kernel
example : b58Decode (txt! "3mJr0") = .val [] := by decide +kernel
example : b58Decode (txt! "O3yxU") = .val [] := by decide +kernel
example : b58Decode (txt! "3sNI") = .val [] := by decide +kernel
example : b58Decode (txt! "4kl8") = .val [] := by decide +kernel
example : b58Decode (txt! "0OIl") = .val [] := by decide +kernel
example : b58Decode (txt! "!@#$%^&*()-_=+~`") = .val [] := by decide +kernel
example : b58CheckDecodeEosio (txt! "6RrvujLQN1x5Tacbep1KAk8zzKpSThAQXBCKYFfGUYeABhJRin") (txt! "") = .val (hex! "02caee1a02910b18dfd5d9db0e8a4bc90f8dd34cedbbfb00c6c841a2abb2fa28cc", none) := by decide +kernel
example : b58CheckEncodeEosio (hex! "02caee1a02910b18dfd5d9db0e8a4bc90f8dd34cedbbfb00c6c841a2abb2fa28cc") (txt! "") = .val (txt! "6RrvujLQN1x5Tacbep1KAk8zzKpSThAQXBCKYFfGUYeABhJRin") := by decide +kernel
example : b58CheckDecodeEosio (txt! "6RrvujLQN1x5Tacbep1KAk8zzKpSThAQXBCKYFfGUYeACcSRFs") (txt! "K1") = .val (hex! "02caee1a02910b18dfd5d9db0e8a4bc90f8dd34cedbbfb00c6c841a2abb2fa28cc", none) := by decide +kernel
example : b58CheckEncodeEosio (hex! "02caee1a02910b18dfd5d9db0e8a4bc90f8dd34cedbbfb00c6c841a2abb2fa28cc") (txt! "K1") = .val (txt! "6RrvujLQN1x5Tacbep1KAk8zzKpSThAQXBCKYFfGUYeACcSRFs") := by decide +kernel
example : b58CheckDecodeEosio (txt! "6RrvujLQN1x5Tacbep1KAk8zzKpSThAQXBCKYFfGUYeACcSRFs") (txt! "ZZ") = .val ([], some errChecksum) := by decide +kernel

/-! ripemd160_test.go:20-53; the three ways of feeding the message -/
example : (Digest.new.write (txt! "")).sum [] = .val (hex! "9c1185a5c5e9fc54612808977ee8f548b2258d31") ∧ ((Digest.new.write (txt! "")).reset.write (txt! "")).sum [] = .val (hex! "9c1185a5c5e9fc54612808977ee8f548b2258d31") ∧
    ((Digest.new.write (txt! "")).write (txt! "")).sum [] = .val (hex! "9c1185a5c5e9fc54612808977ee8f548b2258d31") := by decide +kernel
example : (Digest.new.write (txt! "a")).sum [] = .val (hex! "0bdc9d2d256b3ee9daae347be6f4dc835a467ffe") ∧ ((Digest.new.write (txt! "a")).reset.write (txt! "a")).sum [] = .val (hex! "0bdc9d2d256b3ee9daae347be6f4dc835a467ffe") ∧
    ((Digest.new.write (txt! "")).write (txt! "a")).sum [] = .val (hex! "0bdc9d2d256b3ee9daae347be6f4dc835a467ffe") := by decide +kernel
example : (Digest.new.write (txt! "abc")).sum [] = .val (hex! "8eb208f7e05d987a9b044a8e98c6b087f15a0bfc") ∧ ((Digest.new.write (txt! "abc")).reset.write (txt! "abc")).sum [] = .val (hex! "8eb208f7e05d987a9b044a8e98c6b087f15a0bfc") ∧
    ((Digest.new.write (txt! "a")).write (txt! "bc")).sum [] = .val (hex! "8eb208f7e05d987a9b044a8e98c6b087f15a0bfc") := by decide +kernel
example : (Digest.new.write (txt! "message digest")).sum [] = .val (hex! "5d0689ef49d2fae572b881b123a85ffa21595f36") ∧ ((Digest.new.write (txt! "message digest")).reset.write (txt! "message digest")).sum [] = .val (hex! "5d0689ef49d2fae572b881b123a85ffa21595f36") ∧
    ((Digest.new.write (txt! "message")).write (txt! " digest")).sum [] = .val (hex! "5d0689ef49d2fae572b881b123a85ffa21595f36") := by decide +kernel
example : (Digest.new.write (txt! "abcdefghijklmnopqrstuvwxyz")).sum [] = .val (hex! "f71c27109c692c1b56bbdceb5b9d2865b3708dbc") ∧ ((Digest.new.write (txt! "abcdefghijklmnopqrstuvwxyz")).reset.write (txt! "abcdefghijklmnopqrstuvwxyz")).sum [] = .val (hex! "f71c27109c692c1b56bbdceb5b9d2865b3708dbc") ∧
    ((Digest.new.write (txt! "abcdefghijklm")).write (txt! "nopqrstuvwxyz")).sum [] = .val (hex! "f71c27109c692c1b56bbdceb5b9d2865b3708dbc") := by decide +kernel
example : (Digest.new.write (txt! "abcdbcdecdefdefgefghfghighijhijkijkljklmklmnlmnomnopnopq")).sum [] = .val (hex! "12a053384a9c0c88e405a06c27dcf49ada62eb2b") ∧ ((Digest.new.write (txt! "abcdbcdecdefdefgefghfghighijhijkijkljklmklmnlmnomnopnopq")).reset.write (txt! "abcdbcdecdefdefgefghfghighijhijkijkljklmklmnlmnomnopnopq")).sum [] = .val (hex! "12a053384a9c0c88e405a06c27dcf49ada62eb2b") ∧
    ((Digest.new.write (txt! "abcdbcdecdefdefgefghfghighij")).write (txt! "hijkijkljklmklmnlmnomnopnopq")).sum [] = .val (hex! "12a053384a9c0c88e405a06c27dcf49ada62eb2b") := by decide +kernel
example : (Digest.new.write (txt! "ABCDEFGHIJKLMNOPQRSTUVWXYZabcdefghijklmnopqrstuvwxyz0123456789")).sum [] = .val (hex! "b0e20b6e3116640286ed3a87a5713079b21f5189") ∧ ((Digest.new.write (txt! "ABCDEFGHIJKLMNOPQRSTUVWXYZabcdefghijklmnopqrstuvwxyz0123456789")).reset.write (txt! "ABCDEFGHIJKLMNOPQRSTUVWXYZabcdefghijklmnopqrstuvwxyz0123456789")).sum [] = .val (hex! "b0e20b6e3116640286ed3a87a5713079b21f5189") ∧
    ((Digest.new.write (txt! "ABCDEFGHIJKLMNOPQRSTUVWXYZabcde")).write (txt! "fghijklmnopqrstuvwxyz0123456789")).sum [] = .val (hex! "b0e20b6e3116640286ed3a87a5713079b21f5189") := by decide +kernel
example : (Digest.new.write (txt! "12345678901234567890123456789012345678901234567890123456789012345678901234567890")).sum [] = .val (hex! "9b752e45573d4b39f4dbd3323cab82bf63326bfb") ∧ ((Digest.new.write (txt! "12345678901234567890123456789012345678901234567890123456789012345678901234567890")).reset.write (txt! "12345678901234567890123456789012345678901234567890123456789012345678901234567890")).sum [] = .val (hex! "9b752e45573d4b39f4dbd3323cab82bf63326bfb") ∧
    ((Digest.new.write (txt! "1234567890123456789012345678901234567890")).write (txt! "1234567890123456789012345678901234567890")).sum [] = .val (hex! "9b752e45573d4b39f4dbd3323cab82bf63326bfb") := by decide +kernel

end Verif.Vectors
