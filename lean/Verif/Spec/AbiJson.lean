import Verif.Spec.JsonRepair
import Verif.Spec.Float
import Verif.Model.AbiJson
/-! # The JSON document of a decoded value -/
namespace Verif

/-- The decimal text of an integer -/
def IntText (l : Bytes) (i : Int) : Prop := NumLit l ∧ ∃ ds, AllDigits ds ∧ decValue ds = i.natAbs ∧ ((0 ≤ i ∧ l = ds) ∨ (i < 0 ∧ l = 45 :: ds))
/-- A literal for s; bytes that are not UTF-8 are replaced by U+FFFD. -/
def LitOf (s l : Bytes) : Prop := StrLit l ∧ (Utf8Text s → LitMeans l s) ∧ ∀ t, Repaired s t → ReadAs l t
/-- A string -/
def StringDoc (s : Bytes) (j : JVal) : Prop := ∃ l, j = .str l ∧ LitOf s l
/-- A number -/
def IntDoc (i : Int) (j : JVal) : Prop := ∃ l, j = .num l ∧ IntText l i

/-- A JSON number c * 10 ^ k that is rounded to the float, with a sign if the float has one. No number of fewer digits is rounded to the float, and none of those with the last
digit at the same place is nearer to it. -/
def FloatDoc (p w bits : Nat) (j : JVal) : Prop := ∃ (l : Bytes) (neg : Bool) (c : Nat) (k : Int), j = .num l ∧ (l.head? = some 45 ↔ neg = true) ∧ (bits / 2 ^ (p + w) % 2 = 1 ↔ neg = true) ∧
  NumValue l ((if neg then -1 else 1) * c * tenTo k) ∧ Nearest p w ((if neg then -1 else 1) * c * tenTo k) bits ∧
  (∀ (n : Nat) (e : Int) (d : Nat), Nearest p w ((if neg then -1 else 1) * n * tenTo e) bits → n < 10 ^ d → c < 10 ^ d) ∧
  ∀ n : Nat, Nearest p w ((if neg then -1 else 1) * n * tenTo k) bits → abs (c * tenTo k - abs (ieeeValue p w bits)) ≤ abs (n * tenTo k - abs (ieeeValue p w bits))
def F32Doc (v : UInt32) (j : JVal) : Prop := FloatDoc 23 8 v.toNat j
def F64Doc (v : UInt64) (j : JVal) : Prop := FloatDoc 52 11 v.toNat j

def Basic.Doc : (b : Basic) → b.Val → JVal → Prop
  | .bool, v, j => j = .bool v
  | .string, v, j => StringDoc v j
  | .u8, v, j => IntDoc (UInt8.toNat v) j
  | .u16, v, j => IntDoc (UInt16.toNat v) j
  | .u32, v, j => IntDoc (UInt32.toNat v) j
  | .u64, v, j => IntDoc (UInt64.toNat v) j
  | .uint, v, j => IntDoc (UInt64.toNat v) j
  | .i8, v, j => IntDoc (Int8.toInt v) j
  | .i16, v, j => IntDoc (Int16.toInt v) j
  | .i32, v, j => IntDoc (Int32.toInt v) j
  | .i64, v, j => IntDoc (Int64.toInt v) j
  | .int, v, j => IntDoc (Int64.toInt v) j
  | .f32, v, j => F32Doc v j
  | .f64, v, j => F64Doc v j

/-- The text of the value as a string -/
def TextTy.Doc (x : TextTy) (v : x.Val) (j : JVal) : Prop := ∃ s, x.marshal v = .val s ∧ StringDoc s j
/-- Numbers of more than 32 bits are written as strings. -/
def Uint64Doc (n : Nat) (j : JVal) : Prop := ∃ l, IntText l n ∧ ((n < 2 ^ 32 ∧ j = .num l) ∨ (2 ^ 32 ≤ n ∧ j = .str l))

/-- Chain types are written as their text, but for uint64, extended assets and signatures. -/
def ChainTy.Doc : (c : ChainTy) → c.Val → JVal → Prop
  | .asset, v, j => TextTy.asset.Doc v j
  | .blob, v, j => TextTy.blob.Doc v j
  | .blockTimestamp, v, j => TextTy.blockTimestamp.Doc v j
  | .bytes, v, j => TextTy.bytes.Doc v j
  | .checksum160, v, j => TextTy.checksum160.Doc v j
  | .checksum256, v, j => TextTy.checksum256.Doc v j
  | .checksum512, v, j => TextTy.checksum512.Doc v j
  | .float128, v, j => TextTy.float128.Doc v j
  | .int128, v, j => TextTy.int128.Doc v j
  | .uint128, v, j => TextTy.uint128.Doc v j
  | .name, v, j => TextTy.name.Doc v j
  | .publicKey, v, j => TextTy.publicKey.Doc v j
  | .symbol, v, j => TextTy.symbol.Doc v j
  | .symbolCode, v, j => TextTy.symbolCode.Doc v j
  | .timePoint, v, j => TextTy.timePoint.Doc v j
  | .timePointSec, v, j => TextTy.timePointSec.Doc v j
  | .uint64, v, j => Uint64Doc (UInt64.toNat v) j
  | .blockNum, v, j => Uint64Doc (UInt32.toNat v) j
  | .extendedAsset, v, j => ∃ q c, j = .obj [(asc "quantity", q), (asc "contract", c)] ∧ TextTy.asset.Doc (show ExtendedAsset from v).quantity q ∧
      TextTy.name.Doc (show ExtendedAsset from v).contract c
  | .signature, v, j => ∃ t d, j = .obj [(asc "Type", t), (asc "Data", d)] ∧ IntDoc (show Sig from v).type.toNat t ∧ StringDoc (b64Encode (show Sig from v).data) d
  | _, _, _ => False

mutual
/-- Lists are arrays, maps are objects with their entries in the order of the keys. -/
inductive AV.Doc : AV → JVal → Prop
  | nil : AV.Doc .nil .null
  | basic (b : Basic) (v : b.Val) (j : JVal) : b.Doc v j → AV.Doc (.basic b v) j
  | byteSlice (v : Bytes) (j : JVal) : StringDoc (b64Encode v) j → AV.Doc (.byteSlice v) j
  | chain (c : ChainTy) (v : c.Val) (j : JVal) : c.Doc v j → AV.Doc (.chain c v) j
  | slice (xs : List AV) (js : List JVal) : DocEach xs js → AV.Doc (.slice xs) (.arr js)
  | map (m m' : List (Bytes × AV)) (ms : List (Bytes × JVal)) : m'.Perm m → m'.Pairwise (fun d e => d.1 < e.1) → DocMembers m' ms → AV.Doc (.map m) (.obj ms)
inductive DocEach : List AV → List JVal → Prop
  | nil : DocEach [] []
  | cons (x : AV) (j : JVal) (xs : List AV) (js : List JVal) : AV.Doc x j → DocEach xs js → DocEach (x :: xs) (j :: js)
inductive DocMembers : List (Bytes × AV) → List (Bytes × JVal) → Prop
  | nil : DocMembers [] []
  | cons (k l : Bytes) (x : AV) (j : JVal) (m : List (Bytes × AV)) (ms : List (Bytes × JVal)) : LitOf k l → AV.Doc x j → DocMembers m ms →
      DocMembers ((k, x) :: m) ((l, j) :: ms)
end

/-- Chain values that can be written: assets need a precision below 64. The chain types Abi.Decode does not know are left out. -/
def ChainTy.Writable : (c : ChainTy) → c.Val → Prop
  | .asset, v => (show Asset from v).symbol.toNat % 256 < 64
  | .extendedAsset, v => (show ExtendedAsset from v).quantity.symbol.toNat % 256 < 64
  | .action, _ | .permissionLevel, _ | .transaction, _ | .transactionExtension, _ | .transactionHeader, _ => False
  | _, _ => True

mutual
/-- Values that can be written: floats are finite, assets have a precision below 64. -/
def AV.Writable : AV → Prop
  | .basic .f32 v => Finite32 v
  | .basic .f64 v => Finite64 v
  | .chain c v => c.Writable v
  | .slice xs => writableAll xs
  | .map m => writableEntries m
  | .other => False
  | _ => True
def writableAll : List AV → Prop
  | [] => True
  | x :: xs => x.Writable ∧ writableAll xs
def writableEntries : List (Bytes × AV) → Prop
  | [] => True
  | (_, x) :: m => x.Writable ∧ writableEntries m
end

mutual
/-- No key occurs twice in a map: what a Go map is. -/
def AV.Keys : AV → Prop
  | .slice xs => keysAll xs
  | .map m => (m.map Prod.fst).Nodup ∧ keysEntries m
  | _ => True
def keysAll : List AV → Prop
  | [] => True
  | x :: xs => x.Keys ∧ keysAll xs
def keysEntries : List (Bytes × AV) → Prop
  | [] => True
  | (_, x) :: m => x.Keys ∧ keysEntries m
end

mutual
/-- No values of types the model leaves out -/
def AV.Known : AV → Prop
  | .chain c _ => c ∉ [.action, .permissionLevel, .transaction, .transactionExtension, .transactionHeader]
  | .slice xs => knownAll xs
  | .map m => knownEntries m
  | .other => False
  | _ => True
def knownAll : List AV → Prop
  | [] => True
  | x :: xs => x.Known ∧ knownAll xs
def knownEntries : List (Bytes × AV) → Prop
  | [] => True
  | (_, x) :: m => x.Known ∧ knownEntries m
end

mutual
/-- Levels of arrays and objects; a signature and an extended asset are objects. -/
def AV.depth : AV → Nat
  | .chain _ _ => 1
  | .slice xs => depthAll xs + 1
  | .map m => depthEntries m + 1
  | _ => 0
def depthAll : List AV → Nat
  | [] => 0
  | x :: xs => max x.depth (depthAll xs)
def depthEntries : List (Bytes × AV) → Nat
  | [] => 0
  | (_, x) :: m => max x.depth (depthEntries m)
end

mutual
/-- The same value: the order of the entries of maps does not count. -/
inductive AV.Same : AV → AV → Prop
  | refl (v : AV) : AV.Same v v
  | slice (xs ys : List AV) : SameEach xs ys → AV.Same (.slice xs) (.slice ys)
  | map (m m' n : List (Bytes × AV)) : m.Perm m' → SameEntries m' n → AV.Same (.map m) (.map n)
inductive SameEach : List AV → List AV → Prop
  | nil : SameEach [] []
  | cons (x y : AV) (xs ys : List AV) : AV.Same x y → SameEach xs ys → SameEach (x :: xs) (y :: ys)
inductive SameEntries : List (Bytes × AV) → List (Bytes × AV) → Prop
  | nil : SameEntries [] []
  | cons (k : Bytes) (x y : AV) (m n : List (Bytes × AV)) : AV.Same x y → SameEntries m n → SameEntries ((k, x) :: m) ((k, y) :: n)
end

mutual
/-- Values JSON has: null, booleans, finite numbers, strings in UTF-8, lists and maps -/
def AV.Plain : AV → Prop
  | .nil => True
  | .basic .bool _ => True
  | .basic .f64 v => Finite64 v
  | .basic .string v => Utf8Text v
  | .slice xs => plainAll xs
  | .map m => (m.map Prod.fst).Nodup ∧ plainEntries m
  | _ => False
def plainAll : List AV → Prop
  | [] => True
  | x :: xs => x.Plain ∧ plainAll xs
def plainEntries : List (Bytes × AV) → Prop
  | [] => True
  | (k, x) :: m => Utf8Text k ∧ x.Plain ∧ plainEntries m
end

/-- A number of the document -/
inductive NumIn (l : Bytes) : JVal → Prop
  | here : NumIn l (.num l)
  | elem (j : JVal) (js : List JVal) : j ∈ js → NumIn l j → NumIn l (.arr js)
  | member (k : Bytes) (j : JVal) (ms : List (Bytes × JVal)) : (k, j) ∈ ms → NumIn l j → NumIn l (.obj ms)

/-- The last entry with this key -/
def LastMember (k : Bytes) (x : AV) (es : List (Bytes × AV)) : Prop := ∃ pre post, es = pre ++ (k, x) :: post ∧ k ∉ post.map Prod.fst

mutual
/-- What a document is read as if nothing is known of its type: numbers as the nearest float64, with the sign of the text; of members with the same name the last one counts. -/
inductive AnyOf : JVal → AV → Prop
  | null : AnyOf .null .nil
  | bool (b : Bool) : AnyOf (.bool b) (.basic .bool b)
  | num (l : Bytes) (q : Rat) (v : UInt64) : NumValue l q → NearestF64 q v → (v.toNat / 2 ^ 63 = 1 ↔ l.head? = some 45) → AnyOf (.num l) (.basic .f64 v)
  | str (l s : Bytes) : ReadAs l s → AnyOf (.str l) (.basic .string s)
  | arr (js : List JVal) (xs : List AV) : AnyEach js xs → AnyOf (.arr js) (.slice xs)
  | obj (ms : List (Bytes × JVal)) (es m : List (Bytes × AV)) : AnyMembers ms es → (m.map Prod.fst).Nodup → (∀ k x, (k, x) ∈ m ↔ LastMember k x es) → AnyOf (.obj ms) (.map m)
inductive AnyEach : List JVal → List AV → Prop
  | nil : AnyEach [] []
  | cons (j : JVal) (x : AV) (js : List JVal) (xs : List AV) : AnyOf j x → AnyEach js xs → AnyEach (j :: js) (x :: xs)
inductive AnyMembers : List (Bytes × JVal) → List (Bytes × AV) → Prop
  | nil : AnyMembers [] []
  | cons (l k : Bytes) (j : JVal) (x : AV) (ms : List (Bytes × JVal)) (es : List (Bytes × AV)) : ReadAs l k → AnyOf j x → AnyMembers ms es → AnyMembers ((l, j) :: ms) ((k, x) :: es)
end

end Verif
