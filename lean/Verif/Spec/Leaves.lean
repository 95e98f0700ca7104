import Verif.Spec.Fails
import Verif.Spec.ReflectOverwrite
/-! # What a failed `Decode` leaves in the destination -/
namespace Verif

/-- One after the other up to the element that fails; those behind it are as they were. -/
def LeavesAmong {α : Type} (G : α → Bytes → Bytes → Prop) (L : α → Bytes → α → Prop) (old : List α) (s : Bytes) (new : List α) : Prop :=
  ∃ (pre post done : List α) (x y : α) (m : Bytes), old = pre ++ x :: post ∧ new = done ++ y :: post ∧ done.length = pre.length ∧ InTurn G done s m ∧ L x m y

/-- Elements after their number: as they were if the number cannot be read, otherwise the old elements if there are as many and new ones if not. -/
def LeavesSlice {α : Type} (zero : α) (G : α → Bytes → Bytes → Prop) (L : α → Bytes → α → Prop) (old : Option (List α)) (s : Bytes) (new : Option (List α)) : Prop :=
  new = old ∨ ∃ n lb s' ys, AnyLeb lb n ∧ s = lb ++ s' ∧ new = some ys ∧ LeavesAmong G L (if (old.getD []).length = n then old.getD [] else List.replicate n zero) s' ys

/-- A key or signature of n bytes that is not there: the bytes there are, then zeros. -/
def ZeroFilled (n : Nat) (b : Bytes) : Prop := ∃ d k, 0 < k ∧ b = d ++ List.replicate k 0 ∧ b.length = n

/-- The amount may be new, then the symbol is 0. -/
def AssetLeaves (old new : Asset) : Prop := new = old ∨ new.symbol = 0

/-- The authorizations read so far are appended to those that were there. -/
def ActionLeaves (old new : Action) : Prop := new.data = old.data ∧ ∃ more, new.authorization = old.authorization ++ more

/-- The first number that is not there is set to 0, except for the expiration. -/
def HeaderLeaves (old new : TxHeader) : Prop :=
  new = old ∨ (∃ a, new = { old with expiration := a, refBlockNum := 0 }) ∨ (∃ a b, new = { old with expiration := a, refBlockNum := b, refBlockPrefix := 0 }) ∨
  (∃ a b c, new = { old with expiration := a, refBlockNum := b, refBlockPrefix := c, maxNetUsageWords := 0 }) ∨
  (∃ a b c d, new = { old with expiration := a, refBlockNum := b, refBlockPrefix := c, maxNetUsageWords := d, maxCpuUsageMs := 0 }) ∨ new.delaySec = 0

def ExtensionLeaves (old new : TxExtension) : Prop := new.data = old.data

/-- A new slice up to the element that fails; behind it are zero values. -/
def MadeLeaves {α : Type} (zero : α) (L : α → α → Prop) (old new : List α) : Prop := new = old ∨ ∃ done y k, new = done ++ y :: List.replicate k zero ∧ L zero y

def TransactionLeaves (old new : Transaction) : Prop :=
  HeaderLeaves old.header new.header ∧ new.contextFreeActions = old.contextFreeActions ∧ new.actions = old.actions ∧ new.extensions = old.extensions ∨
  MadeLeaves Action.zero ActionLeaves old.contextFreeActions new.contextFreeActions ∧ new.actions = old.actions ∧ new.extensions = old.extensions ∨
  MadeLeaves Action.zero ActionLeaves old.actions new.actions ∧ new.extensions = old.extensions ∨
  MadeLeaves TxExtension.zero ExtensionLeaves old.extensions new.extensions

/-- A method UnmarshalABI of package chain that returns an error: most leave the value as it was. -/
def ChainTy.Leaves : (c : ChainTy) → (old new : c.Val) → Prop
  | .action, old, new => ActionLeaves old new
  | .asset, old, new => AssetLeaves old new
  | .extendedAsset, old, new => ExtendedAsset.contract new = ExtendedAsset.contract old
  | .permissionLevel, old, new => PermissionLevel.permission new = PermissionLevel.permission old
  | .publicKey, old, new => new = old ∨ 2 ≤ (PubKey.type new).toNat ∧ PubKey.data new = PubKey.data old ∨ (PubKey.type new).toNat < 2 ∧ ZeroFilled 33 (PubKey.data new)
  | .signature, old, new => new = old ∨ 2 ≤ (Sig.type new).toNat ∧ Sig.data new = Sig.data old ∨ (Sig.type new).toNat < 2 ∧ ZeroFilled 65 (Sig.data new)
  | .transaction, old, new => TransactionLeaves old new
  | .transactionExtension, old, new => ExtensionLeaves old new
  | .transactionHeader, old, new => HeaderLeaves old new
  | _, old, new => new = old

/-- What decoding without error stores: the value that `Ty.Gives` names, where nil and empty slices are not distinguished. -/
def Ty.Stores (fin : Err) (t : Ty) (m : Mode) (v : t.Val) (s r : Bytes) : Prop := ∃ w, t.Gives fin m w s r ∧ t.Agree v w

/-- A nil pointer is set before anything is read. -/
def Ty.Pointed : (t : Ty) → (old new : t.Val) → Prop
  | .ptr t, old, new => (show Option t.Val from new) = some ((show Option t.Val from old).getD t.zero)
  | _, old, new => new = old

mutual
/-- The destination held `old`, decoding the input s fails, and then it holds `new`. -/
def Ty.Leaves (fin : Err) : (t : Ty) → Mode → (old : t.Val) → (s : Bytes) → (new : t.Val) → Prop
  | .basic b, m, old, _, new => if m = .decode ∨ m = .elem then new = b.zero else new = old
  | .named _, _, old, _, new => new = old
  | .unsupported, _, old, _, new => new = old
  | .bytes, m, old, s, new =>
      if m = .decode ∨ m = .elem then new = old ∨ ∃ n lb s', AnyLeb lb n ∧ s = lb ++ s' ∧
        (2 ^ 63 ≤ n ∧ (show Option Bytes from new) = none ∨ s'.length < n ∧ (show Option Bytes from new) = some (s' ++ List.replicate (n - s'.length) 0))
      else if m = .value then LeavesSlice (0 : UInt8) (fun b s r => s = b :: r) (fun _ s y => s = [] ∧ y = 0) old s new
      else new = old
  | .chain c, m, old, _, new => if m = .member then new = old else c.Leaves old new
  | .ptr t, m, old, s, new => match m with
      | .member => new = old
      | .elem => ∃ x : t.Val, (show Option t.Val from new) = some x ∧ t.Leaves fin .decode ((show Option t.Val from old).getD t.zero) s x
      | .variant idx => ∃ x : t.Val, (show Option t.Val from new) = some x ∧ t.Leaves fin (.variant idx) ((show Option t.Val from old).getD t.zero) s x
      | _ => ∃ x : t.Val, (show Option t.Val from new) = some x ∧ t.Leaves fin .value ((show Option t.Val from old).getD t.zero) s x
  | .slice t, m, old, s, new =>
      if m = .decode ∨ m = .elem ∨ m = .value then LeavesSlice t.zero (t.Stores fin .elem) (fun x s y => t.Leaves fin .elem x s y) old s new else new = old
  | .array _ t, m, old, s, new => if m = .decode ∨ m = .elem ∨ m = .value then LeavesAmong (t.Stores fin .elem) (fun x s y => t.Leaves fin .elem x s y) old s new else new = old
  | .map k e, m, old, s, new =>
      if m = .decode ∨ m = .elem ∨ m = .value then new = old ∨ ∃ (ys xs : List (k.Val × e.Val)) (n : Nat) (lb s' r : Bytes),
        AnyCount lb n ∧ s = lb ++ s' ∧ ys.length < n ∧ InTurn (fun y s r => ∃ m, k.Gives fin .decode y.1 s m ∧ e.Gives fin .decode y.2 m r) ys s' r ∧
        Gathers ys xs ∧ (show Option (List (k.Val × e.Val)) from new) = some xs
      else new = old
  | .struct fs, m, old, s, new => match m with
      | .variant idx => if fs.count ≤ idx then new = old else fs.LeavesMember idx old new
      | .member => new = old
      | _ => fs.Leaves fin false old s new
  | .ref _ _ _, _, old, _, new => new = old
/-- The fields up to the one that fails; those behind it are as they were. There is no such field if the variable for the error still holds io.EOF at the end (`before`:
before these fields), from an extension. -/
def Fields.Leaves (fin : Err) : (fs : Fields) → (before : Bool) → (old : fs.Val) → (s : Bytes) → (new : fs.Val) → Prop
  | .nil, before, _, _, _ => before = true
  | .cons vis tag t fs, before, old, s, new =>
    let x := (show t.Val × fs.Val from old).1
    let xs := (show t.Val × fs.Val from old).2
    let y := (show t.Val × fs.Val from new).1
    let ys := (show t.Val × fs.Val from new).2
    match vis, tag with
    | .blank, _ => y = x ∧ fs.Leaves fin before xs s ys
    | .unexported, _ => False
    | .exported, .optional => s = [] ∧ t.Pointed x y ∧ ys = xs ∨ (∃ s', s = 0 :: s' ∧ y = t.zero ∧ fs.Leaves fin before xs s' ys) ∨
        ∃ p s', p ≠ 0 ∧ s = p :: s' ∧ (t.Leaves fin .elem x s' y ∧ ys = xs ∨ ∃ m, t.Stores fin .elem y s' m ∧ fs.Leaves fin false xs m ys)
    | .exported, .variant => s = [] ∧ t.Pointed x y ∧ ys = xs ∨
        ∃ (idx : UInt8) (s' : Bytes), s = idx :: s' ∧ (t.Leaves fin (.variant idx.toNat) x s' y ∧ ys = xs ∨ ∃ m, t.Stores fin (.variant idx.toNat) y s' m ∧ fs.Leaves fin false xs m ys)
    | .exported, .extension => t.Leaves fin .elem x s y ∧ ys = xs ∨ (fin = .eof ∧ t.Stops .elem s ∧ y = t.zero ∧ fs.Leaves fin true xs [] ys) ∨ ∃ m, t.Stores fin .elem y s m ∧ fs.Leaves fin false xs m ys
    | .exported, .none => t.Leaves fin .elem x s y ∧ ys = xs ∨ ∃ m, t.Stores fin .elem y s m ∧ fs.Leaves fin false xs m ys
/-- The selected member is as it was, the others are nil. -/
def Fields.LeavesMember : (fs : Fields) → Nat → (old new : fs.Val) → Prop
  | .nil, _, _, _ => True
  | .cons _ _ t fs, 0, old, new => (show t.Val × fs.Val from new).1 = (show t.Val × fs.Val from old).1 ∧ (show t.Val × fs.Val from new).2 = fs.zero
  | .cons _ _ t fs, n + 1, old, new => (show t.Val × fs.Val from new).1 = t.zero ∧ fs.LeavesMember n (show t.Val × fs.Val from old).2 (show t.Val × fs.Val from new).2
end

end Verif
