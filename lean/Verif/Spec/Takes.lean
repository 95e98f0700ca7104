import Verif.Spec.Panics
import Verif.Spec.Reflect
/-! # Which bytes a decoder accepts, and as what

The layouts of Spec/Reflect and Spec/Tx are what is written. What is read is more: numbers and lengths in LEB128 need not be minimal, every byte but 0 is true,
entries of a map may repeat a key. Of the model only the types and values are used, their zero values and the size of an element in memory. -/
namespace Verif

/-- Decoding succeeds exactly on the byte strings that R relates to a value, consumes them and yields this value; what follows does not matter, nor how the stream ends. -/
def Dec.Exactly {α : Type} (p : Dec (α × Option Err)) (R : α → Bytes → Prop) : Prop :=
  ∀ (fin : Err) (bs : Bytes) (a : α) (r : Bytes), p.runE fin bs = .ok (a, none) r ↔ ∃ w, bs = w ++ r ∧ R a w

/-- LEB128 of at most ten bytes, not necessarily minimal, of a 64 bit number. -/
def AnyLeb (lb : Bytes) (n : Nat) : Prop := IsLeb lb ∧ lb.length ≤ 10 ∧ lebValue lb = n ∧ n < 2 ^ 64

/-- The number of turns of a loop that counts up to an int: none if the number is negative as an int. -/
def AnyCount (lb : Bytes) (n : Nat) : Prop := AnyLeb lb n ∧ n < 2 ^ 63 ∨ n = 0 ∧ ∃ m, AnyLeb lb m ∧ 2 ^ 63 ≤ m

/-- A byte string after its length; `make` must be able to allocate it. -/
def Sized (w b : Bytes) : Prop := ∃ lb, AnyLeb lb b.length ∧ b.length ≤ maxAlloc ∧ w = lb ++ b

def Basic.Takes : (b : Basic) → b.Val → Bytes → Prop
  | .bool, v, w => ∃ c : UInt8, w = [c] ∧ v = decide (c ≠ 0)
  | .string, v, w => Sized w v
  | .int, v, w => ∃ n : Nat, AnyLeb w n ∧ (n : Int) = if 0 ≤ Int64.toInt v then 2 * Int64.toInt v else -2 * Int64.toInt v - 1
  | .uint, v, w => AnyLeb w (UInt64.toNat v)
  | b, v, w => b.Layout v w

/-- Elements after their number; `make` must be able to allocate them. -/
def SizedEach {α : Type} (size : Nat) (R : α → Bytes → Prop) (xs : List α) (w : Bytes) : Prop :=
  ∃ lb es, AnyLeb lb xs.length ∧ xs.length < 2 ^ 63 ∧ xs.length * size ≤ maxAlloc ∧ Each R xs es ∧ w = lb ++ es

/-- The authorizations are counted by a loop. -/
def ActionTakes (a : Action) (w : Bytes) : Prop := ∃ ac n lb au d, LeForm 8 a.account.toNat ac ∧ LeForm 8 a.name.toNat n ∧
  AnyCount lb a.authorization.length ∧ Each PermLayout a.authorization au ∧ Sized d a.data ∧ w = ac ++ n ++ lb ++ au ++ d

def HeaderTakes (h : TxHeader) (w : Bytes) : Prop := ∃ e n p mw c d, LeForm 4 h.expiration.toNat e ∧ LeForm 2 h.refBlockNum.toNat n ∧
  LeForm 4 h.refBlockPrefix.toNat p ∧ AnyLeb mw h.maxNetUsageWords.toNat ∧ LeForm 1 h.maxCpuUsageMs.toNat c ∧ AnyLeb d h.delaySec.toNat ∧
  w = e ++ n ++ p ++ mw ++ c ++ d

def ExtensionTakes (x : TxExtension) (w : Bytes) : Prop := ∃ t d, LeForm 2 x.type.toNat t ∧ Sized d x.data ∧ w = t ++ d

/-- An Action takes 64 bytes in memory, a TransactionExtension 32. -/
def TransactionTakes (tx : Transaction) (w : Bytes) : Prop := ∃ h c a x, HeaderTakes tx.header h ∧ SizedEach 64 ActionTakes tx.contextFreeActions c ∧
  SizedEach 64 ActionTakes tx.actions a ∧ SizedEach 32 ExtensionTakes tx.extensions x ∧ w = h ++ c ++ a ++ x

/-- A length as it stands in the input and as it is stored: any LEB128 and the minimal one, of a number below 2^35. -/
def Relength (lb m b : Bytes) : Prop := AnyLeb lb b.length ∧ MinLeb m b.length ∧ b.length < 2 ^ 35

/-- The data of a WebAuthn key is what was read, with the length in minimal form. -/
def KeyTakes (k : PubKey) (w : Bytes) : Prop :=
  ((k.type = 0 ∨ k.type = 1) ∧ k.data.length = 33 ∧ w = k.type :: k.data) ∨
  (k.type = 2 ∧ ∃ point lb m id, point.length = 34 ∧ Relength lb m id ∧ k.data = point ++ m ++ id ∧ w = k.type :: (point ++ lb ++ id))

def SigTakes (s : Sig) (w : Bytes) : Prop :=
  ((s.type = 0 ∨ s.type = 1) ∧ s.data.length = 65 ∧ w = s.type :: s.data) ∨
  (s.type = 2 ∧ ∃ sig lb m ad lb' m' cd, sig.length = 65 ∧ Relength lb m ad ∧ Relength lb' m' cd ∧ s.data = sig ++ m ++ ad ++ m' ++ cd ∧
    w = s.type :: (sig ++ lb ++ ad ++ lb' ++ cd))

def ChainTy.Takes : (c : ChainTy) → c.Val → Bytes → Prop
  | .action, v, w => ActionTakes v w
  | .blob, v, w => ∃ x : Bytes, v = some x ∧ Sized w x
  | .bytes, v, w => ∃ x : Bytes, v = some x ∧ Sized w x
  | .checksum160, v, w => w = v ∧ w.length = 20
  | .checksum256, v, w => w = v ∧ w.length = 32
  | .checksum512, v, w => w = v ∧ w.length = 64
  | .float128, v, w => w = v ∧ w.length = 16
  | .publicKey, v, w => KeyTakes v w
  | .signature, v, w => SigTakes v w
  | .transaction, v, w => TransactionTakes v w
  | .transactionExtension, v, w => ExtensionTakes v w
  | .transactionHeader, v, w => HeaderTakes v w
  | c, v, w => c.Layout v w

/-- m is the map that arises by storing the entries one after the other: a key has the value of its last entry. Listed in the order in which the keys first occur. -/
def Gathers {α β : Type} [DecidableEq α] (ys m : List (α × β)) : Prop := m.map Prod.fst = (ys.map Prod.fst).eraseDups ∧
  ∀ k x, (k, x) ∈ m ↔ ∃ pre post, ys = pre ++ (k, x) :: post ∧ ∀ y ∈ post, y.1 ≠ k

/-- All members but the given one can be nil. -/
def Fields.NilableBut : Fields → (sel : Option Nat) → Prop
  | .nil, _ => True
  | .cons _ _ _ fs, some 0 => fs.NilableBut none
  | .cons _ _ t fs, some (n + 1) => t.Nilable ∧ fs.NilableBut (some n)
  | .cons _ _ t fs, none => t.Nilable ∧ fs.NilableBut none

mutual
/-- w is accepted as v by a destination of type t that holds its zero value and is reached as `Mode` says. -/
def Ty.Takes : (t : Ty) → Mode → t.Val → Bytes → Prop
  | .basic b, m, v, w => (m = .decode ∨ m = .elem ∨ m = .value ∧ b.Wide) ∧ b.Takes v w
  | .named b, m, v, w => (m = .decode ∨ m = .elem ∨ m = .value) ∧ b.Wide ∧ b.Takes v w
  | .unsupported, _, _, _ => False
  /- an empty one is nil only behind a further pointer -/
  | .bytes, m, v, w => Sized w (Option.getD (α := Bytes) v []) ∧
      ((m = .decode ∨ m = .elem) ∧ (show Option Bytes from v) ≠ none ∨ m = .value ∧ (show Option Bytes from v) ≠ some [])
  | .chain c, m, v, w => m ≠ .member ∧ c.Takes v w
  | .ptr t, m, v, w => ∃ x : t.Val, (show Option t.Val from v) = some x ∧ t.Takes (match m with
      | .elem => .decode
      | .member => .decode
      | .variant idx => .variant idx
      | _ => .value) x w
  /- an empty one is nil -/
  | .slice t, m, v, w => (m = .decode ∨ m = .elem ∨ m = .value) ∧ (show Option (List t.Val) from v) ≠ some [] ∧
      SizedEach t.size (t.Takes .elem) (Option.getD (α := List t.Val) v []) w
  | .array n t, m, v, w => (m = .decode ∨ m = .elem ∨ m = .value) ∧ List.length (α := t.Val) v = n ∧ Each (t.Takes .elem) (show List t.Val from v) w
  | .map k e, m, v, w => (m = .decode ∨ m = .elem ∨ m = .value) ∧ ∃ (ys xs : List (k.Val × e.Val)) (lb es : Bytes),
      (show Option (List (k.Val × e.Val)) from v) = some xs ∧ Gathers ys xs ∧ AnyCount lb ys.length ∧
      Each (fun y bs => ∃ b1 b2, k.Takes .decode y.1 b1 ∧ e.Takes .decode y.2 b2 ∧ bs = b1 ++ b2) ys es ∧ w = lb ++ es
  | .struct fs, m, v, w => match m with
      | .variant idx => fs.NilableBut (some idx) ∧ fs.TakesMember idx v w
      | .member => False
      | _ => fs.Takes v w
  | .ref _ _ _, _, _, _ => False
/-- A blank field is passed over. An optional field is absent if the presence byte is 0. A variant is the number of a member, as one byte, and the member. -/
def Fields.Takes : (fs : Fields) → fs.Val → Bytes → Prop
  | .nil, _, w => w = []
  | .cons vis tag t fs, v, w => ∃ b1 b2, fs.Takes (show t.Val × fs.Val from v).2 b2 ∧ w = b1 ++ b2 ∧
    match vis, tag with
    | .blank, _ => (show t.Val × fs.Val from v).1 = t.zero ∧ b1 = []
    | .unexported, _ => False
    | .exported, .optional => ((show t.Val × fs.Val from v).1 = t.zero ∧ b1 = [0]) ∨ ∃ p b, p ≠ 0 ∧ t.Takes .elem (show t.Val × fs.Val from v).1 b ∧ b1 = p :: b
    | .exported, .variant => ∃ (idx : UInt8) (b : Bytes), t.Takes (.variant idx.toNat) (show t.Val × fs.Val from v).1 b ∧ b1 = idx :: b
    | .exported, _ => t.Takes .elem (show t.Val × fs.Val from v).1 b1
/-- The member with the given number; the others are nil. -/
def Fields.TakesMember : (fs : Fields) → Nat → fs.Val → Bytes → Prop
  | .nil, _, _, _ => False
  | .cons vis _ t fs, 0, v, w => vis = .exported ∧ (show t.Val × fs.Val from v).2 = fs.zero ∧ t.Takes .member (show t.Val × fs.Val from v).1 w
  | .cons _ _ t fs, n + 1, v, w => (show t.Val × fs.Val from v).1 = t.zero ∧ fs.TakesMember n (show t.Val × fs.Val from v).2 w
end

mutual
/-- No field is an extension, and no map has keys with pointers or floats. -/
def Ty.Strait : Ty → Prop
  | .ptr t => t.Strait
  | .slice t => t.Strait
  | .array _ t => t.Strait
  | .map k e => k.KeyType ∧ k.Strait ∧ e.Strait
  | .struct fs => fs.Strait
  | _ => True
def Fields.Strait : Fields → Prop
  | .nil => True
  | .cons _ tag t fs => tag ≠ .extension ∧ t.Strait ∧ fs.Strait
end

end Verif
