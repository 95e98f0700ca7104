import Verif.Spec.JsonTypes
import Verif.Spec.Text
/-! # Which documents fit a type, and the value they stand for -/
namespace Verif

/-- The value of the member of the given name, letter case aside -/
def memberOf (ms : List (Bytes × JVal)) (key : Bytes) : Option JVal := (ms.find? fun m => foldKey (unquote m.1) == foldKey key).map (·.2)

/-- An unsigned decimal number below 2^bits, or null for the old value -/
def ReadsNat (bits : Nat) {α : Type} (toNat : α → Nat) (old : α) (j : JVal) (new : α) : Prop :=
  (j = .null ∧ new = old) ∨ ∃ l, j = .num l ∧ l ≠ [] ∧ AllDigits l ∧ decValue l = toNat new ∧ decValue l < 2 ^ bits

def JBasic.Reads : (b : JBasic) → b.Val → JVal → b.Val → Prop
  | .bool, old, j, new => (j = .null ∧ new = old) ∨ j = .bool new
  | .string, old, j, new => (j = .null ∧ new = old) ∨ ∃ l, j = .str l ∧ new = unquote l
  | .u8, old, j, new => ReadsNat 8 UInt8.toNat old j new
  | .u16, old, j, new => ReadsNat 16 UInt16.toNat old j new
  | .u32, old, j, new => ReadsNat 32 UInt32.toNat old j new
  | .uint, old, j, new => ReadsNat 64 UInt64.toNat old j new

mutual
/-- Reading document j into a variable that holds `old` gives `new`. -/
def JTy.Reads (sha : Sha256) : (t : JTy) → t.Val → JVal → t.Val → Prop
  | .basic b, old, j, new => b.Reads old j new
  | .text x, old, j, new => (j = .null ∧ new = x.null old) ∨ ∃ l, j = .str l ∧ x.unmarshal sha old (unquote l) = .val (new, none)
  | .uint64, old, j, new => Uint64.unmarshalJSON old j.print = (new, none)
  | .blockNum, old, j, new => BlockNum.unmarshalJSON old j.print = (new, none)
  | .ptr t, old, j, new => (j = .null ∧ new = (none : Option t.Val)) ∨
    (j ≠ .null ∧ ∃ x, new = (some x : Option t.Val) ∧ t.Reads sha (Option.getD (α := t.Val) old t.zero) j x)
  | .slice t, old, j, new => (j = .null ∧ new = (none : Option (List t.Val))) ∨
    ∃ js xs, j = .arr js ∧ new = (some xs : Option (List t.Val)) ∧ xs.length = js.length ∧
      ∀ i j x, js[i]? = some j → xs[i]? = some x → t.Reads sha ((Option.getD (α := List t.Val) old []).getD i t.zero) j x
  | .struct fs, old, j, new => (j = .null ∧ new = old) ∨ ∃ ms, j = .obj ms ∧ fs.Reads sha (memberOf ms) old new
/-- Field by field: a field with a member is read from it, any other keeps its value. -/
def JFields.Reads (sha : Sha256) : (fs : JFields) → (look : Bytes → Option JVal) → fs.Val → fs.Val → Prop
  | .nil, _, _, _ => True
  | .cons key _ t fs, look, old, new =>
    let (x, xs) : t.Val × fs.Val := old
    let (y, ys) : t.Val × fs.Val := new
    (match look key with
      | none => y = x
      | some j => t.Reads sha x j y) ∧ fs.Reads sha look xs ys
end

mutual
/-- No object has two members of the same name, letter case aside. -/
def JVal.Apart : JVal → Prop
  | .arr xs => apartList xs
  | .obj ms => (ms.Pairwise fun p q => foldKey (unquote p.1) ≠ foldKey (unquote q.1)) ∧ apartMembers ms
  | _ => True
def apartList : List JVal → Prop
  | [] => True
  | x :: xs => x.Apart ∧ apartList xs
def apartMembers : List (Bytes × JVal) → Prop
  | [] => True
  | (_, x) :: ms => x.Apart ∧ apartMembers ms
end

mutual
/-- No struct has two fields of the same name, letter case aside. -/
def JTy.Apart : JTy → Prop
  | .ptr t => t.Apart
  | .slice t => t.Apart
  | .struct fs => (fs.keys.Pairwise fun a b => foldKey a ≠ foldKey b) ∧ fs.EachApart
  | _ => True
def JFields.EachApart : JFields → Prop
  | .nil => True
  | .cons _ _ t fs => t.Apart ∧ fs.EachApart
end

end Verif
