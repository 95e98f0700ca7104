import Verif.Spec.Methods
/-! # Specification: methods MarshalABI and UnmarshalABI that return an error

Before the part whose method fails everything is as in Spec/Methods. -/
namespace Verif

/-- One of the elements is broken, those before are written (`R`); the bytes up to there. -/
inductive UpTo {α : Type} (R B : α → Bytes → Prop) : List α → Bytes → Prop
  | here {x : α} {xs : List α} {b : Bytes} : B x b → UpTo R B (x :: xs) b
  | later {x : α} {xs : List α} {b1 b2 : Bytes} : R x b1 → UpTo R B xs b2 → UpTo R B (x :: xs) (b1 ++ b2)

/-- One of the elements has P, those before have Q. -/
inductive FirstBad {α : Type} (Q P : α → Prop) : List α → Prop
  | here {x : α} {xs : List α} : P x → FirstBad Q P (x :: xs)
  | later {x : α} {xs : List α} : Q x → FirstBad Q P xs → FirstBad Q P (x :: xs)

/-- For which values the methods of the declared types return a certain error, and after which bytes. -/
abbrev Refusals := (i : Nat) → (t : MTy) → t.bare.Val → Bytes → Prop

section
variable (W : Formats) (F : Refusals)

mutual
/-- `bs` is the wire form of the parts before one whose method returns the error, then what this method has written. -/
def MTy.Broken : (t : MTy) → t.bare.Val → Bytes → Prop
  | .plain _, _, _ => False
  | .own i t, v, bs =>
    match W i t with
    | some _ => F i t v bs
    | none => t.Broken v bs
  | .ptr t, v, bs => ∃ x : t.bare.Val, (show Option t.bare.Val from v) = some x ∧ t.Broken x bs
  | .slice t, v, bs => ∃ l b, MinLeb l (Option.getD (α := List t.bare.Val) v []).length ∧ UpTo (t.Layout W) t.Broken (Option.getD (α := List t.bare.Val) v []) b ∧ bs = l ++ b
  | .array _ t, v, bs => UpTo (t.Layout W) t.Broken (show List t.bare.Val from v) bs
  | .map k t, v, bs => ∃ l b, MinLeb l (Option.getD (α := List (k.Val × t.bare.Val)) v []).length ∧ bs = l ++ b ∧
    UpTo (fun x bs => ∃ b1 b2, k.Layout x.1 b1 ∧ t.Layout W x.2 b2 ∧ bs = b1 ++ b2) (fun x bs => ∃ b1 b2, k.Layout x.1 b1 ∧ t.Broken x.2 b2 ∧ bs = b1 ++ b2)
      (Option.getD (α := List (k.Val × t.bare.Val)) v []) b
  | .struct fs, v, bs => fs.Broken v bs
def MFields.Broken : (fs : MFields) → fs.bare.Val → Bytes → Prop
  | .nil, _, _ => False
  | .cons tag t fs, v, bs =>
    (if tag = .optional then (show t.bare.Val × fs.bare.Val from v).1 ≠ t.bare.zero ∧ ∃ b, t.Broken (show t.bare.Val × fs.bare.Val from v).1 b ∧ bs = 1 :: b
      else t.Broken (show t.bare.Val × fs.bare.Val from v).1 bs) ∨
    ∃ b1 b2, fs.Broken (show t.bare.Val × fs.bare.Val from v).2 b2 ∧ bs = b1 ++ b2 ∧
      (if tag = .optional then
        ((show t.bare.Val × fs.bare.Val from v).1 = t.bare.zero ∧ b1 = [0]) ∨
        ((show t.bare.Val × fs.bare.Val from v).1 ≠ t.bare.zero ∧ ∃ b, t.Layout W (show t.bare.Val × fs.bare.Val from v).1 b ∧ b1 = 1 :: b)
      else t.Layout W (show t.bare.Val × fs.bare.Val from v).1 b1)
end

mutual
/-- There is a part whose method returns the error, and nothing is wrong before. -/
def MTy.Stuck : (t : MTy) → t.bare.Val → Prop
  | .plain _, _ => False
  | .own i t, v =>
    match W i t with
    | some _ => ∃ bs, F i t v bs
    | none => t.Stuck v
  | .ptr t, v => ∃ x : t.bare.Val, (show Option t.bare.Val from v) = some x ∧ t.Stuck x
  | .slice t, v => (Option.getD (α := List t.bare.Val) v []).length < 2 ^ 28 ∧ FirstBad (t.Wf W) t.Stuck (Option.getD (α := List t.bare.Val) v [])
  | .array _ t, v => FirstBad (t.Wf W) t.Stuck (show List t.bare.Val from v)
  | .map k t, v => (Option.getD (α := List (k.Val × t.bare.Val)) v []).length < 2 ^ 28 ∧
    FirstBad (fun x => k.Wf x.1 ∧ t.Wf W x.2) (fun x => k.Wf x.1 ∧ t.Stuck x.2) (Option.getD (α := List (k.Val × t.bare.Val)) v [])
  | .struct fs, v => fs.Stuck v
def MFields.Stuck : (fs : MFields) → fs.bare.Val → Prop
  | .nil, _ => False
  | .cons tag t fs, v =>
    ((tag = .optional → (show t.bare.Val × fs.bare.Val from v).1 ≠ t.bare.zero) ∧ t.Stuck (show t.bare.Val × fs.bare.Val from v).1) ∨
    (((tag = .optional ∧ (show t.bare.Val × fs.bare.Val from v).1 = t.bare.zero) ∨ t.Wf W (show t.bare.Val × fs.bare.Val from v).1) ∧
      fs.Stuck (show t.bare.Val × fs.bare.Val from v).2)
end

/-- Data that begins with elements that are read and goes on with one that is not. -/
inductive DataUpTo {α : Type} (Q : α → Prop) (R : α → Bytes → Prop) (B : Bytes → Prop) : Nat → Bytes → Prop
  | here {n : Nat} {b : Bytes} : B b → DataUpTo Q R B (n + 1) b
  | later {n : Nat} {x : α} {b1 b2 : Bytes} : Q x → R x b1 → DataUpTo Q R B n b2 → DataUpTo Q R B (n + 1) (b1 ++ b2)

mutual
/-- Data that UnmarshalABI of a part refuses (`D`: with a certain error); the parts before are in their form. -/
def MTy.Spoiled (D : Nat → MTy → Bytes → Prop) : MTy → Bytes → Prop
  | .plain _, _ => False
  | .own i t, bs =>
    match W i t with
    | some _ => D i t bs
    | none => t.Spoiled D bs
  | .ptr t, bs => t.Spoiled D bs
  | .slice t, bs => ∃ n l b, n < 2 ^ 28 ∧ n * t.bare.size ≤ maxAlloc ∧ MinLeb l n ∧ DataUpTo (t.Wf W) (t.Layout W) (t.Spoiled D) n b ∧ bs = l ++ b
  | .array n t, bs => DataUpTo (t.Wf W) (t.Layout W) (t.Spoiled D) n bs
  | .map k t, bs => ∃ n l b, n < 2 ^ 28 ∧ MinLeb l n ∧ bs = l ++ b ∧
    DataUpTo (fun x : k.Val × t.bare.Val => k.Wf x.1 ∧ t.Wf W x.2) (fun x bs => ∃ b1 b2, k.Layout x.1 b1 ∧ t.Layout W x.2 b2 ∧ bs = b1 ++ b2)
      (fun bs => ∃ x b1 b2, k.Wf x ∧ k.Layout x b1 ∧ t.Spoiled D b2 ∧ bs = b1 ++ b2) n b
  | .struct fs, bs => fs.Spoiled D bs
def MFields.Spoiled (D : Nat → MTy → Bytes → Prop) : MFields → Bytes → Prop
  | .nil, _ => False
  | .cons tag t fs, bs => (if tag = .optional then ∃ b, t.Spoiled D b ∧ bs = 1 :: b else t.Spoiled D bs) ∨
    ∃ x b1 b2, fs.Spoiled D b2 ∧ bs = b1 ++ b2 ∧ ((t.Wf W x ∧ ∃ b, t.Layout W x b ∧ b1 = if tag = .optional then 1 :: b else b) ∨ (tag = .optional ∧ b1 = [0]))
end
end

end Verif
