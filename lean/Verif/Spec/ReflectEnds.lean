import Verif.Spec.AbiEnds
/-! What `Decode` makes of an input by reflection, for all types, whether the input is long enough or not, with `extension` fields.
A field tagged `extension` whose decoding ends with io.EOF becomes the zero value; the error is kept in a variable, which the next fields overwrite and which is
returned at the end. -/
namespace Verif

/-- One after the other. -/
inductive InTurn {α : Type} (R : α → Bytes → Bytes → Prop) : List α → Bytes → Bytes → Prop where
  | nil {s : Bytes} : InTurn R [] s s
  | cons {x : α} {xs : List α} {s m r : Bytes} : R x s m → InTurn R xs m r → InTurn R (x :: xs) s r

/-- One of n elements ends with io.EOF, those before it are complete. -/
def StopsAmong {α : Type} (R : α → Bytes → Bytes → Prop) (S : Bytes → Prop) (n : Nat) (s : Bytes) : Prop := ∃ xs m, xs.length < n ∧ InTurn R xs s m ∧ S m

/-- Elements after their number, which `make` must be able to allocate: io.EOF at the number or in an element. -/
def StopsSlice {α : Type} (size : Nat) (R : α → Bytes → Bytes → Prop) (S : Bytes → Prop) (s : Bytes) : Prop :=
  CutLeb s ∨ ∃ n lb s', AnyLeb lb n ∧ n < 2 ^ 63 ∧ n * size ≤ maxAlloc ∧ s = lb ++ s' ∧ StopsAmong R S n s'

/-- The same, counted by a loop. -/
def StopsLoop {α : Type} (R : α → Bytes → Bytes → Prop) (S : Bytes → Prop) (s : Bytes) : Prop :=
  CutLeb s ∨ ∃ n lb s', AnyCount lb n ∧ s = lb ++ s' ∧ StopsAmong R S n s'

def Splits {α : Type} (R : α → Bytes → Prop) (v : α) (s r : Bytes) : Prop := ∃ w, R v w ∧ s = w ++ r

def Basic.Dry (b : Basic) (s : Bytes) : Prop := match b with
  | .string => CutSized s
  | .int => CutLeb s
  | .uint => CutLeb s
  | _ => s = []

def HeaderDry (s : Bytes) : Prop := s = [] ∨ s.length = 4 ∨ s.length = 6 ∨ ∃ h s', h.length = 10 ∧ s = h ++ s' ∧
  (CutLeb s' ∨ ∃ mw n s'', AnyLeb mw n ∧ s' = mw ++ s'' ∧ (s'' = [] ∨ ∃ c s''', s'' = c :: s''' ∧ CutLeb s'''))

/-- Since the errors of the first two names are dropped, io.EOF is reported anywhere in them. -/
def ActionDry (s : Bytes) : Prop := s.length < 16 ∨ ∃ h s', h.length = 16 ∧ s = h ++ s' ∧
  (StopsLoop (Splits PermLayout) (fun m => m.length ≤ 8) s' ∨ ∃ n xs lb au s'', AnyCount lb n ∧ xs.length = n ∧ Each PermLayout xs au ∧ s' = lb ++ au ++ s'' ∧ CutSized s'')

def ExtensionDry (s : Bytes) : Prop := s = [] ∨ ∃ a b s', s = a :: b :: s' ∧ CutSized s'

def TransactionDry (s : Bytes) : Prop := HeaderDry s ∨ ∃ h hb s', HeaderTakes h hb ∧ s = hb ++ s' ∧
  (StopsSlice 64 (Splits ActionTakes) ActionDry s' ∨ ∃ xs xb s'', SizedEach 64 ActionTakes xs xb ∧ s' = xb ++ s'' ∧
  (StopsSlice 64 (Splits ActionTakes) ActionDry s'' ∨ ∃ ys yb s''', SizedEach 64 ActionTakes ys yb ∧ s'' = yb ++ s''' ∧ StopsSlice 32 (Splits ExtensionTakes) ExtensionDry s'''))

/-- Where the input may end so that io.EOF is reported, and not another error. -/
def ChainTy.Dry : ChainTy → Bytes → Prop
  | .action, s => ActionDry s
  | .blob, s => CutSized s
  | .permissionLevel, s => s.length ≤ 8
  | .transaction, s => TransactionDry s
  | .transactionExtension, s => ExtensionDry s
  | .transactionHeader, s => HeaderDry s
  | c, s => ∃ v, c.Cut v s

mutual
/-- An input s that ends with the error fin is decoded without error as v, r is left. The destination holds its zero value and is reached as `Mode` says. -/
def Ty.Gives (fin : Err) : (t : Ty) → Mode → t.Val → (s r : Bytes) → Prop
  | .ptr t, m, v, s, r => ∃ x : t.Val, (show Option t.Val from v) = some x ∧ t.Gives fin (match m with
      | .elem => .decode
      | .member => .decode
      | .variant idx => .variant idx
      | _ => .value) x s r
  | .slice t, m, v, s, r => (m = .decode ∨ m = .elem ∨ m = .value) ∧ (show Option (List t.Val) from v) ≠ some [] ∧ ∃ lb s',
      AnyLeb lb (Option.getD (α := List t.Val) v []).length ∧ (Option.getD (α := List t.Val) v []).length < 2 ^ 63 ∧ (Option.getD (α := List t.Val) v []).length * t.size ≤ maxAlloc ∧
      s = lb ++ s' ∧ InTurn (fun x s r => t.Gives fin .elem x s r) (Option.getD (α := List t.Val) v []) s' r
  | .array n t, m, v, s, r => (m = .decode ∨ m = .elem ∨ m = .value) ∧ List.length (α := t.Val) v = n ∧ InTurn (fun x s r => t.Gives fin .elem x s r) (show List t.Val from v) s r
  | .map k e, m, v, s, r => (m = .decode ∨ m = .elem ∨ m = .value) ∧ ∃ (ys xs : List (k.Val × e.Val)) (lb s' : Bytes),
      (show Option (List (k.Val × e.Val)) from v) = some xs ∧ Gathers ys xs ∧ AnyCount lb ys.length ∧ s = lb ++ s' ∧
      InTurn (fun y s r => ∃ m, k.Gives fin .decode y.1 s m ∧ e.Gives fin .decode y.2 m r) ys s' r
  | .struct fs, m, v, s, r => match m with
      | .variant idx => fs.NilableBut (some idx) ∧ fs.GivesMember fin idx v s r
      | .member => False
      | _ => fs.Gives fin false false v s r
  | t, m, v, s, r => Splits (t.Takes m) v s r
/-- The fields of a struct, if the variable for the error holds io.EOF before them (`before`) and after them (`after`).
Only an extension sets it, whatever is decoded resets it, even if it takes no bytes; blank and absent optional fields leave it. -/
def Fields.Gives (fin : Err) : (fs : Fields) → (before after : Bool) → fs.Val → (s r : Bytes) → Prop
  | .nil, before, after, _, s, r => before = after ∧ s = r
  | .cons vis tag t fs, before, after, v, s, r =>
    match vis, tag with
    | .blank, _ => (show t.Val × fs.Val from v).1 = t.zero ∧ fs.Gives fin before after (show t.Val × fs.Val from v).2 s r
    | .unexported, _ => False
    | .exported, .optional => (∃ s', s = 0 :: s' ∧ (show t.Val × fs.Val from v).1 = t.zero ∧ fs.Gives fin before after (show t.Val × fs.Val from v).2 s' r) ∨
        ∃ p s' m, p ≠ 0 ∧ s = p :: s' ∧ t.Gives fin .elem (show t.Val × fs.Val from v).1 s' m ∧ fs.Gives fin false after (show t.Val × fs.Val from v).2 m r
    | .exported, .variant => ∃ (idx : UInt8) (s' m : Bytes), s = idx :: s' ∧ t.Gives fin (.variant idx.toNat) (show t.Val × fs.Val from v).1 s' m ∧
        fs.Gives fin false after (show t.Val × fs.Val from v).2 m r
    | .exported, .extension => (∃ m, t.Gives fin .elem (show t.Val × fs.Val from v).1 s m ∧ fs.Gives fin false after (show t.Val × fs.Val from v).2 m r) ∨
        fin = .eof ∧ t.Stops .elem s ∧ (show t.Val × fs.Val from v).1 = t.zero ∧ fs.Gives fin true after (show t.Val × fs.Val from v).2 [] r
    | .exported, .none => ∃ m, t.Gives fin .elem (show t.Val × fs.Val from v).1 s m ∧ fs.Gives fin false after (show t.Val × fs.Val from v).2 m r
/-- The member with the given number; the others are nil. -/
def Fields.GivesMember (fin : Err) : (fs : Fields) → Nat → fs.Val → (s r : Bytes) → Prop
  | .nil, _, _, _, _ => False
  | .cons vis _ t fs, 0, v, s, r => vis = .exported ∧ (show t.Val × fs.Val from v).2 = fs.zero ∧ t.Gives fin .member (show t.Val × fs.Val from v).1 s r
  | .cons _ _ t fs, n + 1, v, s, r => (show t.Val × fs.Val from v).1 = t.zero ∧ fs.GivesMember fin n (show t.Val × fs.Val from v).2 s r
/-- On the input s, which ends with io.EOF, decoding returns io.EOF. -/
def Ty.Stops : (t : Ty) → Mode → (s : Bytes) → Prop
  | .basic b, m, s => (m = .decode ∨ m = .elem ∨ m = .value ∧ b.Wide) ∧ b.Dry s
  | .named b, m, s => (m = .decode ∨ m = .elem ∨ m = .value) ∧ b.Wide ∧ b.Dry s
  | .unsupported, _, _ => False
  | .bytes, m, s => (m = .decode ∨ m = .elem) ∧ CutSized s ∨ m = .value ∧ (CutLeb s ∨ ∃ n lb s', AnyLeb lb n ∧ n ≤ maxAlloc ∧ s = lb ++ s' ∧ s'.length < n)
  | .chain c, m, s => m ≠ .member ∧ c.Dry s
  | .ptr t, m, s => t.Stops (match m with
      | .elem => .decode
      | .member => .decode
      | .variant idx => .variant idx
      | _ => .value) s
  | .slice t, m, s => (m = .decode ∨ m = .elem ∨ m = .value) ∧ StopsSlice t.size (fun x s r => t.Gives .eof .elem x s r) (fun s => t.Stops .elem s) s
  | .array n t, m, s => (m = .decode ∨ m = .elem ∨ m = .value) ∧ StopsAmong (fun x s r => t.Gives .eof .elem x s r) (fun s => t.Stops .elem s) n s
  | .map k e, m, s => (m = .decode ∨ m = .elem ∨ m = .value) ∧
      StopsLoop (fun (y : k.Val × e.Val) s r => ∃ m, k.Gives .eof .decode y.1 s m ∧ e.Gives .eof .decode y.2 m r)
        (fun s => k.Stops .decode s ∨ ∃ x m, k.Gives .eof .decode x s m ∧ e.Stops .decode m) s
  | .struct fs, m, s => match m with
      | .variant idx => fs.NilableBut (some idx) ∧ fs.StopsMember idx s
      | .member => False
      | _ => fs.Stops false s
  | .ref _ _ _, _, _ => False
/-- Either a field that is no extension ends with io.EOF, or the variable for the error holds io.EOF at the end. -/
def Fields.Stops : (fs : Fields) → (before : Bool) → (s : Bytes) → Prop
  | .nil, before, _ => before = true
  | .cons vis tag t fs, before, s =>
    match vis, tag with
    | .blank, _ => fs.Stops before s
    | .unexported, _ => False
    | .exported, .optional => s = [] ∨ (∃ s', s = 0 :: s' ∧ fs.Stops before s') ∨
        ∃ p s', p ≠ 0 ∧ s = p :: s' ∧ (t.Stops .elem s' ∨ ∃ x m, t.Gives .eof .elem x s' m ∧ fs.Stops false m)
    | .exported, .variant => s = [] ∨ ∃ (idx : UInt8) (s' : Bytes), s = idx :: s' ∧
        (t.Stops (.variant idx.toNat) s' ∨ ∃ x m, t.Gives .eof (.variant idx.toNat) x s' m ∧ fs.Stops false m)
    | .exported, .extension => (t.Stops .elem s ∧ fs.Stops true []) ∨ ∃ x m, t.Gives .eof .elem x s m ∧ fs.Stops false m
    | .exported, .none => t.Stops .elem s ∨ ∃ x m, t.Gives .eof .elem x s m ∧ fs.Stops false m
def Fields.StopsMember : (fs : Fields) → Nat → (s : Bytes) → Prop
  | .nil, _, _ => False
  | .cons _ _ t _, 0, s => t.Stops .member s
  | .cons _ _ _ fs, n + 1, s => fs.StopsMember n s
end

mutual
/-- No map has keys with pointers or floats: such keys are not modelled. -/
def Ty.Keyed : Ty → Prop
  | .ptr t => t.Keyed
  | .slice t => t.Keyed
  | .array _ t => t.Keyed
  | .map k e => k.KeyType ∧ k.Keyed ∧ e.Keyed
  | .struct fs => fs.Keyed
  | _ => True
def Fields.Keyed : Fields → Prop
  | .nil => True
  | .cons _ _ t fs => t.Keyed ∧ fs.Keyed
end

end Verif
