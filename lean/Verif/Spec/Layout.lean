import Verif.Model.Reflect
/-! # Specification: size and alignment of Go types (linux/amd64)

A struct places its fields in order, each at the first offset that suits its alignment. -/
namespace Verif

/-- Where the fields, given by size and alignment, end if the first may start at e. -/
inductive Placed : Nat → List (Nat × Nat) → Nat → Prop
  | nil (e : Nat) : Placed e [] e
  | cons {e o s a e' : Nat} {l : List (Nat × Nat)} : e ≤ o → a ∣ o → o < e + a → Placed (o + s) l e' → Placed e ((s, a) :: l) e'

/-- Size and alignment of a struct from those of its fields: it is as aligned as its most aligned field and as long as alignment requires. A last field without size
gets a byte, lest its address be that of another variable. -/
def StructLayout (l : List (Nat × Nat)) (s a : Nat) : Prop :=
  ∃ e p, Placed 0 l e ∧ p = (if l.getLast?.map Prod.fst = some 0 ∧ e > 0 then e + 1 else e) ∧ (∀ f ∈ l, f.2 ≤ a) ∧ (a = 1 ∨ ∃ f ∈ l, f.2 = a) ∧ 0 < a ∧ a ∣ s ∧ p ≤ s ∧ s < p + a

/-- The words of a string (address, length) and of a slice (address, length, capacity) -/
def stringWords : List (Nat × Nat) := [(8, 8), (8, 8)]
def sliceWords : List (Nat × Nat) := [(8, 8), (8, 8), (8, 8)]

/-- The basic types of one word or less -/
def Basic.width : Basic → Option Nat
  | .bool => some 1
  | .u8 => some 1
  | .i8 => some 1
  | .u16 => some 2
  | .i16 => some 2
  | .u32 => some 4
  | .i32 => some 4
  | .f32 => some 4
  | .u64 => some 8
  | .i64 => some 8
  | .f64 => some 8
  | .int => some 8
  | .uint => some 8
  | .string => none

def fieldsOf : List Ty → Fields
  | [] => .nil
  | t :: l => .cons .exported .none t (fieldsOf l)

/-- The declarations of pkg/chain -/
def ChainTy.decl : ChainTy → Ty
  | .name => .basic .u64                                                          -- name.go:6
  | .symbol => .basic .u64                                                        -- symbol.go:12
  | .symbolCode => .basic .u64                                                    -- symbol.go:14
  | .uint64 => .basic .u64                                                        -- numbers.go:27
  | .blockNum => .basic .u32                                                      -- numbers.go:30
  | .timePoint => .basic .i64                                                     -- time.go:9
  | .timePointSec => .basic .u32                                                  -- time.go:11
  | .blockTimestamp => .basic .u32                                                -- time.go:13
  | .bytes => .bytes                                                              -- bytes.go:11
  | .blob => .bytes                                                               -- blob.go:12
  | .checksum160 => .array 20 (.basic .u8)                                        -- checksum.go:13
  | .checksum256 => .array 32 (.basic .u8)                                        -- checksum.go:16
  | .checksum512 => .array 64 (.basic .u8)                                        -- checksum.go:19
  | .uint128 => .struct (fieldsOf [.basic .u64, .basic .u64])                     -- numbers.go:15-18
  | .int128 => .struct (fieldsOf [.basic .u64, .basic .u64])                      -- numbers.go:20
  | .float128 => .struct (fieldsOf [.array 16 (.basic .u8)])                      -- numbers.go:22-24
  | .asset => .struct (fieldsOf [.basic .i64, .chain .symbol])                    -- asset.go:14-17
  | .extendedAsset => .struct (fieldsOf [.chain .asset, .chain .name])            -- asset.go:19-22
  | .publicKey => .struct (fieldsOf [.named .u8, .bytes])                         -- public_key.go:12-15, key_type.go:3
  | .signature => .struct (fieldsOf [.named .u8, .bytes])                         -- signature.go:12-15
  | .permissionLevel => .struct (fieldsOf [.chain .name, .chain .name])           -- action.go:10-13
  | .action => .struct (fieldsOf [.chain .name, .chain .name, .slice (.chain .permissionLevel), .chain .bytes]) -- action.go:15-20
  | .transactionHeader => .struct (fieldsOf [.chain .timePointSec, .basic .u16, .basic .u32, .basic .uint, .basic .u8, .basic .uint]) -- transaction.go:5-12
  | .transactionExtension => .struct (fieldsOf [.basic .u16, .chain .bytes])      -- transaction.go:14-17
  | .transaction => .struct (fieldsOf [.chain .transactionHeader, .slice (.chain .action), .slice (.chain .action), .slice (.chain .transactionExtension)]) -- transaction.go:19-24

mutual
/-- The type has this size and alignment. -/
inductive Ty.Has : Ty → Nat → Nat → Prop
  | word {b : Basic} {w : Nat} : b.width = some w → Ty.Has (.basic b) w w
  | string {s a : Nat} : StructLayout stringWords s a → Ty.Has (.basic .string) s a
  | named {b : Basic} {s a : Nat} : Ty.Has (.basic b) s a → Ty.Has (.named b) s a
  /-- two float64 -/
  | unsupported : Ty.Has .unsupported 16 8
  | bytes {s a : Nat} : StructLayout sliceWords s a → Ty.Has .bytes s a
  | slice {t : Ty} {s a : Nat} : StructLayout sliceWords s a → Ty.Has (.slice t) s a
  | chain {c : ChainTy} {s a : Nat} : Ty.Has c.decl s a → Ty.Has (.chain c) s a
  | ptr {t : Ty} : Ty.Has (.ptr t) 8 8
  | map {k e : Ty} : Ty.Has (.map k e) 8 8
  | array {n : Nat} {t : Ty} {s a : Nat} : Ty.Has t s a → Ty.Has (.array n t) (n * s) a
  | struct {fs : Fields} {l : List (Nat × Nat)} {s a : Nat} : Fields.Have fs l → StructLayout l s a → Ty.Has (.struct fs) s a
inductive Fields.Have : Fields → List (Nat × Nat) → Prop
  | nil : Fields.Have .nil []
  | cons {vis : Vis} {tag : Tag} {t : Ty} {fs : Fields} {s a : Nat} {l : List (Nat × Nat)} : Ty.Has t s a → Fields.Have fs l → Fields.Have (.cons vis tag t fs) ((s, a) :: l)
end

end Verif
