import Verif.Spec.ReflectEnds
/-! How `Decode` fails, for all types and inputs: with which error, by a panic, or never ending. -/
namespace Verif

/-- What a call that does not succeed does. -/
inductive Failure where
  | err (e : Err)
  | panic
  /-- recursion without end; also where a type given by name only is looked into (Model/Recursive) -/
  | endless
deriving DecidableEq

/-- Of a call that returns a value and an error. -/
def Out.Faults {α : Type} (o : Out (α × Option Err)) : Failure → Prop
  | .err e => ∃ v r, o = .ok (v, some e) r
  | .panic => ∃ w, o = .panic w
  | .endless => o = .diverge

/-- n bytes at once; the input has fewer, and then the error fin: if it has some, io.EOF is replaced. -/
def Torn (n : Nat) (fin : Err) (s : Bytes) (x : Failure) : Prop := s.length < n ∧ x = .err (if s ≠ [] ∧ fin = .eof then .unexpectedEOF else fin)

/-- A number in LEB128: the input ends in it, where old versions of Go keep io.EOF, or it has more than 64 bits. -/
def LebFault (fin : Err) (s : Bytes) (x : Failure) : Prop :=
  (s.length < 10 ∧ (∀ b ∈ s, 128 ≤ b.toNat) ∧ x = .err (if s ≠ [] ∧ fin = .eof ∧ goLegacyUvarint = false then .unexpectedEOF else fin)) ∨
  ∃ p r, s = p ++ r ∧ (p.length = 10 ∧ (∀ b ∈ p, 128 ≤ b.toNat) ∨ p.length ≤ 10 ∧ IsLeb p ∧ 2 ^ 64 ≤ lebValue p) ∧ x = .err (.msg "binary: varint overflows a 64-bit integer")

/-- n bytes after n has been read: negative as an int, too many for `make`, or not there. -/
def BlockFault (n : Nat) (fin : Err) (s : Bytes) (x : Failure) : Prop :=
  2 ^ 63 ≤ n ∧ x = .err (.msg "abi: read with negative count") ∨ maxAlloc < n ∧ n < 2 ^ 63 ∧ x = .panic ∨ n ≤ maxAlloc ∧ Torn n fin s x

/-- After n bytes. -/
def After (n : Nat) (F : Err → Bytes → Failure → Prop) (fin : Err) (s : Bytes) (x : Failure) : Prop := ∃ h s', h.length = n ∧ s = h ++ s' ∧ F fin s' x

/-- After a number. -/
def AfterLeb (F : Nat → Err → Bytes → Failure → Prop) (fin : Err) (s : Bytes) (x : Failure) : Prop := ∃ n lb s', AnyLeb lb n ∧ s = lb ++ s' ∧ F n fin s' x

/-- Bytes after their number. -/
def SizedFault (fin : Err) (s : Bytes) (x : Failure) : Prop := LebFault fin s x ∨ AfterLeb BlockFault fin s x

/-- One of n elements, those before it are complete. -/
def FaultAmong {α : Type} (R : α → Bytes → Bytes → Prop) (F : Bytes → Failure → Prop) (n : Nat) (s : Bytes) (x : Failure) : Prop := ∃ xs m, xs.length < n ∧ InTurn R xs s m ∧ F m x

/-- Elements after their number, for which `make` allocates: it panics if they do not fit. -/
def FaultSlice {α : Type} (size : Nat) (R : α → Bytes → Bytes → Prop) (F : Bytes → Failure → Prop) (fin : Err) (s : Bytes) (x : Failure) : Prop :=
  LebFault fin s x ∨ ∃ n lb s', AnyLeb lb n ∧ s = lb ++ s' ∧ ((2 ^ 63 ≤ n ∨ maxAlloc < n * size) ∧ x = .panic ∨ n < 2 ^ 63 ∧ n * size ≤ maxAlloc ∧ FaultAmong R F n s' x)

/-- The same, counted by a loop. -/
def FaultLoop {α : Type} (R : α → Bytes → Bytes → Prop) (F : Bytes → Failure → Prop) (fin : Err) (s : Bytes) (x : Failure) : Prop :=
  LebFault fin s x ∨ ∃ n lb s', AnyCount lb n ∧ s = lb ++ s' ∧ FaultAmong R F n s' x

def Basic.Failure : Basic → Err → Bytes → Failure → Prop
  | .bool | .u8 | .i8 => Torn 1
  | .u16 | .i16 => Torn 2
  | .u32 | .i32 | .f32 => Torn 4
  | .u64 | .i64 | .f64 => Torn 8
  | .string => SizedFault
  | .int | .uint => LebFault

/-- The error of the first name is dropped; then the input is used up. -/
def PermFault (fin : Err) (s : Bytes) (x : Failure) : Prop := s.length < 8 ∧ x = .err fin ∨ After 8 (Torn 8) fin s x

/-- The errors of the first two names are dropped; then the input is used up. -/
def ActionFault (fin : Err) (s : Bytes) (x : Failure) : Prop := s.length < 16 ∧ x = .err fin ∨ ∃ h s', h.length = 16 ∧ s = h ++ s' ∧
  (FaultLoop (Splits PermLayout) (PermFault fin) fin s' x ∨ ∃ n xs lb au s'', AnyCount lb n ∧ xs.length = n ∧ Each PermLayout xs au ∧ s' = lb ++ au ++ s'' ∧ SizedFault fin s'' x)

def ExtensionFault (fin : Err) (s : Bytes) (x : Failure) : Prop := Torn 2 fin s x ∨ After 2 SizedFault fin s x

def HeaderFault (fin : Err) (s : Bytes) (x : Failure) : Prop :=
  Torn 4 fin s x ∨ After 4 (Torn 2) fin s x ∨ After 6 (Torn 4) fin s x ∨ After 10 LebFault fin s x ∨
  After 10 (AfterLeb fun _ => Torn 1) fin s x ∨ After 10 (AfterLeb fun _ => After 1 LebFault) fin s x

def TransactionFault (fin : Err) (s : Bytes) (x : Failure) : Prop := HeaderFault fin s x ∨ ∃ h hb s', HeaderTakes h hb ∧ s = hb ++ s' ∧
  (FaultSlice 64 (Splits ActionTakes) (ActionFault fin) fin s' x ∨ ∃ xs xb s'', SizedEach 64 ActionTakes xs xb ∧ s' = xb ++ s'' ∧
  (FaultSlice 64 (Splits ActionTakes) (ActionFault fin) fin s'' x ∨ ∃ ys yb s''', SizedEach 64 ActionTakes ys yb ∧ s'' = yb ++ s''' ∧
    FaultSlice 32 (Splits ExtensionTakes) (ExtensionFault fin) fin s''' x))

/-- A name after a WebAuthn key: it is read, then its length does not fit into five bytes. -/
def KeyFault (fin : Err) (s : Bytes) (x : Failure) : Prop := Torn 1 fin s x ∨ ∃ t s', s = t :: s' ∧
  ((t = 0 ∨ t = 1) ∧ Torn 33 fin s' x ∨ 2 < t ∧ x = .err (.msg "unknown key type") ∨
  t = 2 ∧ (Torn 34 fin s' x ∨ After 34 SizedFault fin s' x ∨ x = .panic ∧ ∃ p lb b r, p.length = 34 ∧ AnyLeb lb b.length ∧ b.length ≤ maxAlloc ∧ 2 ^ 35 ≤ b.length ∧ s' = p ++ lb ++ b ++ r))

/-- Both parts of a WebAuthn signature are read, then one of the lengths does not fit into five bytes. -/
def SigFault (fin : Err) (s : Bytes) (x : Failure) : Prop := Torn 1 fin s x ∨ ∃ t s', s = t :: s' ∧
  ((t = 0 ∨ t = 1) ∧ Torn 65 fin s' x ∨ 2 < t ∧ x = .err (.msg "unknown key type") ∨
  t = 2 ∧ (Torn 65 fin s' x ∨ After 65 SizedFault fin s' x ∨
    ∃ p w a s'', p.length = 65 ∧ Sized w a ∧ s' = p ++ w ++ s'' ∧ (SizedFault fin s'' x ∨ x = .panic ∧ ∃ w' c r, Sized w' c ∧ (2 ^ 35 ≤ a.length ∨ 2 ^ 35 ≤ c.length) ∧ s'' = w' ++ r)))

/-- How a method of package chain fails. -/
def ChainTy.Failure : ChainTy → Err → Bytes → Failure → Prop
  | .action => ActionFault
  | .blob | .bytes => SizedFault
  | .blockNum | .blockTimestamp | .timePointSec => Torn 4
  | .name | .symbol | .symbolCode | .uint64 | .timePoint => Torn 8
  | .checksum160 => Torn 20
  | .checksum256 => Torn 32
  | .checksum512 => Torn 64
  | .float128 => Torn 16
  | .asset | .int128 | .uint128 => fun fin s x => Torn 8 fin s x ∨ After 8 (Torn 8) fin s x
  | .extendedAsset => fun fin s x => Torn 8 fin s x ∨ After 8 (Torn 8) fin s x ∨ After 16 (Torn 8) fin s x
  | .permissionLevel => PermFault
  | .publicKey => KeyFault
  | .signature => SigFault
  | .transaction => TransactionFault
  | .transactionExtension => ExtensionFault
  | .transactionHeader => HeaderFault

/-- A destination reached as a variant or as a member of one that cannot be such. -/
def Mode.Refuses (m : Mode) (x : Failure) : Prop := (∃ i, m = .variant i) ∧ x = .err (.msg "abi: invalid variant: expected struct") ∨ m = .member ∧ x = .err (.msg "abi: invalid variant: expected field pointer")

/-- The error of a type that is not supported. -/
def Unsupported (x : Failure) : Prop := x = .err (.msg "abi: unsupported type")

mutual
/-- On the input s, which ends with the error fin, decoding fails as x says. The destination holds its zero value and is reached as `Mode` says. -/
def Ty.Fails (fin : Err) : (t : Ty) → Mode → (s : Bytes) → Failure → Prop
  | .basic b, m, s, x => (m = .decode ∨ m = .elem ∨ m = .value ∧ b.Wide) ∧ b.Failure fin s x ∨ m = .value ∧ ¬ b.Wide ∧ Unsupported x ∨ m.Refuses x
  | .named b, m, s, x => (m = .decode ∨ m = .elem ∨ m = .value) ∧ (b.Wide ∧ b.Failure fin s x ∨ ¬ b.Wide ∧ Unsupported x) ∨ m.Refuses x
  | .unsupported, m, _, x => (m = .decode ∨ m = .elem ∨ m = .value) ∧ Unsupported x ∨ m.Refuses x
  /- behind a further pointer the bytes are read one by one -/
  | .bytes, m, s, x => (m = .decode ∨ m = .elem) ∧ SizedFault fin s x ∨
      m = .value ∧ (LebFault fin s x ∨ AfterLeb (fun n fin s x => maxAlloc < n ∧ x = .panic ∨ n ≤ maxAlloc ∧ s.length < n ∧ x = .err fin) fin s x) ∨ m.Refuses x
  | .chain c, m, s, x => m ≠ .member ∧ c.Failure fin s x ∨ m = .member ∧ m.Refuses x
  | .ptr t, m, s, x => t.Fails fin (match m with
      | .elem => .decode
      | .member => .decode
      | .variant idx => .variant idx
      | _ => .value) s x
  | .slice t, m, s, x => (m = .decode ∨ m = .elem ∨ m = .value) ∧ FaultSlice t.size (fun v s r => t.Gives fin .elem v s r) (fun s x => t.Fails fin .elem s x) fin s x ∨ m.Refuses x
  | .array n t, m, s, x => (m = .decode ∨ m = .elem ∨ m = .value) ∧ FaultAmong (fun v s r => t.Gives fin .elem v s r) (fun s x => t.Fails fin .elem s x) n s x ∨ m.Refuses x
  | .map k e, m, s, x => (m = .decode ∨ m = .elem ∨ m = .value) ∧
      FaultLoop (fun (y : k.Val × e.Val) s r => ∃ m, k.Gives fin .decode y.1 s m ∧ e.Gives fin .decode y.2 m r)
        (fun s x => k.Fails fin .decode s x ∨ ∃ v m, k.Gives fin .decode v s m ∧ e.Fails fin .decode m x) fin s x ∨ m.Refuses x
  | .struct fs, m, s, x => match m with
      | .variant idx => fs.count ≤ idx ∧ x = .err (.msg "abi: variant index out of bounds") ∨ idx < fs.count ∧ (¬ fs.NilableBut (some idx) ∧ x = .panic ∨ fs.NilableBut (some idx) ∧ fs.FailsMember fin idx s x)
      | .member => m.Refuses x
      | _ => fs.Fails fin false s x
  | .ref _ _ _, m, _, x => m ≠ .member ∧ x = .endless ∨ m = .member ∧ m.Refuses x
/-- Either a field fails, except with io.EOF if it is an extension, or the variable for the error holds io.EOF at the end (`before`: before these fields). -/
def Fields.Fails (fin : Err) : (fs : Fields) → (before : Bool) → (s : Bytes) → Failure → Prop
  | .nil, before, _, x => before = true ∧ x = .err .eof
  | .cons vis tag t fs, before, s, x =>
    match vis, tag with
    | .blank, _ => fs.Fails fin before s x
    | .unexported, _ => x = .panic
    | .exported, .optional => Torn 1 fin s x ∨ (∃ s', s = 0 :: s' ∧ fs.Fails fin before s' x) ∨
        ∃ p s', p ≠ 0 ∧ s = p :: s' ∧ (t.Fails fin .elem s' x ∨ ∃ v m, t.Gives fin .elem v s' m ∧ fs.Fails fin false m x)
    | .exported, .variant => Torn 1 fin s x ∨ ∃ (idx : UInt8) (s' : Bytes), s = idx :: s' ∧
        (t.Fails fin (.variant idx.toNat) s' x ∨ ∃ v m, t.Gives fin (.variant idx.toNat) v s' m ∧ fs.Fails fin false m x)
    | .exported, .extension => (t.Fails fin .elem s x ∧ x ≠ .err .eof) ∨ (t.Fails fin .elem s (.err .eof) ∧ fs.Fails fin true [] x) ∨
        ∃ v m, t.Gives fin .elem v s m ∧ fs.Fails fin false m x
    | .exported, .none => t.Fails fin .elem s x ∨ ∃ v m, t.Gives fin .elem v s m ∧ fs.Fails fin false m x
/-- The member with the given number. It is decoded even if it is not exported; storing it panics. -/
def Fields.FailsMember (fin : Err) : (fs : Fields) → Nat → (s : Bytes) → Failure → Prop
  | .nil, _, _, _ => False
  | .cons vis _ t _, 0, s, x => t.Fails fin .member s x ∨ vis ≠ .exported ∧ x = .panic ∧ ∃ v r, t.Gives fin .member v s r
  | .cons _ _ _ fs, n + 1, s, x => fs.FailsMember fin n s x
end

/-- The messages of `Decode`. -/
def decodeMessages : List String := ["binary: varint overflows a 64-bit integer", "abi: read with negative count", "unknown key type", "abi: unsupported type",
  "abi: invalid variant: expected struct", "abi: invalid variant: expected field pointer", "abi: variant index out of bounds"]

/-- The error of the reader, where io.EOF may be replaced, or one of the messages above; recursion without end only if `endless`. -/
def Failure.Known (fin : Err) (endless : Prop) : Failure → Prop
  | .err e => e = fin ∨ fin = .eof ∧ e = .unexpectedEOF ∨ ∃ msg ∈ decodeMessages, e = .msg msg
  | .panic => True
  | .endless => endless

mutual
/-- No part of the type is given by name only. -/
def Ty.Refless : Ty → Prop
  | .ptr t => t.Refless
  | .slice t => t.Refless
  | .array _ t => t.Refless
  | .map k e => k.Refless ∧ e.Refless
  | .struct fs => fs.Refless
  | .ref _ _ _ => False
  | _ => True
def Fields.Refless : Fields → Prop
  | .nil => True
  | .cons _ _ t fs => t.Refless ∧ fs.Refless
end

end Verif
