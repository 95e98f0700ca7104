import Verif.Model.Name
import Verif.Model.Blob
import Verif.Model.Time
import Verif.Model.Base58
/-! # pkg/chain/action.go, transaction.go

Nil and empty slices are not distinguished. The decoders append to or fill slices; running out of memory is not modelled, only the
limit of `make` is. -/
namespace Verif

/-- action.go:10-13 -/
structure PermissionLevel where
  actor : UInt64
  permission : UInt64
deriving DecidableEq, Repr

/-- action.go:15-20 -/
structure Action where
  account : UInt64
  name : UInt64
  authorization : List PermissionLevel
  data : Bytes
deriving DecidableEq, Repr

/-- transaction.go:5-12; uint is 64 bits wide -/
structure TxHeader where
  expiration : UInt32
  refBlockNum : UInt16
  refBlockPrefix : UInt32
  maxNetUsageWords : UInt64
  maxCpuUsageMs : UInt8
  delaySec : UInt64
deriving DecidableEq, Repr

/-- transaction.go:14-17 -/
structure TxExtension where
  type : UInt16
  data : Bytes
deriving DecidableEq, Repr

/-- transaction.go:19-24 -/
structure Transaction where
  header : TxHeader
  contextFreeActions : List Action
  actions : List Action
  extensions : List TxExtension
deriving DecidableEq, Repr

/-- The zero values of the Go types. -/
def PermissionLevel.zero : PermissionLevel := ⟨0, 0⟩
/-- Zero value of action.go:15-20 -/
def Action.zero : Action := ⟨0, 0, [], []⟩
/-- Zero value of transaction.go:5-12 -/
def TxHeader.zero : TxHeader := ⟨0, 0, 0, 0, 0, 0⟩
/-- Zero value of transaction.go:14-17 -/
def TxExtension.zero : TxExtension := ⟨0, []⟩
/-- Zero value of transaction.go:19-24 -/
def Transaction.zero : Transaction := ⟨.zero, [], [], []⟩

/-- `for i := …; i < n; i++ { err = xs[i].MarshalABI(e); if err != nil { return err } }` followed by `k` -/
def encEach {α : Type} (enc : α → Enc (Option Err)) (k : Enc (Option Err)) : List α → Enc (Option Err)
  | [] => k
  | x :: xs => do
    match ← enc x with
    | some e => pure (some e)
    | none => encEach enc k xs

/-- `for i := …; i < n; i++ { err = xs[i].UnmarshalABI(d); if err != nil { return err } }`: the elements after the loop -/
def decEach {α : Type} (dec : α → Dec (α × Option Err)) : List α → Dec (List α × Option Err)
  | [] => pure ([], none)
  | x :: xs => do
    let (y, err) ← dec x
    match err with
    | some e => pure (y :: xs, some e)
    | none =>
      let (ys, err) ← decEach dec xs
      pure (y :: ys, err)

/-- stdlib `make([]T, n)` for a `uint` n and elements of `size` bytes: the zeroed elements, or a panic when the length is negative as an int or the
allocation exceeds the limit. -/
def makeSlice {α β : Type} (zero : α) (size : Nat) (n : UInt64) (k : List α → Dec β) : Dec β :=
  if goInt n < 0 then .panic "makeslice: len out of range"
  else if n.toNat * size > maxAlloc then .panic "makeslice: len out of range"
  else k (List.replicate n.toNat zero)

/-- action.go:53-56 `PermissionLevel.MarshalABI`: the error of the first write is dropped -/
def PermissionLevel.marshal (pl : PermissionLevel) : Enc (Option Err) := do
  let _ ← Name.marshal pl.actor
  Name.marshal pl.permission

/-- action.go:58-74 `Action.MarshalABI`: the errors of the first two writes are dropped -/
def Action.marshal (a : Action) : Enc (Option Err) := do
  let _ ← Name.marshal a.account
  let _ ← Name.marshal a.name
  match ← writeVaruint a.authorization.length.toUInt64 with
  | some e => pure (some e)
  | none => encEach PermissionLevel.marshal (BytesT.marshal a.data) a.authorization

/-- action.go:78-81 `PermissionLevel.UnmarshalABI`: the error of the first read is dropped -/
def PermissionLevel.unmarshal (old : PermissionLevel) : Dec (PermissionLevel × Option Err) := do
  let (actor, _) ← Name.unmarshal old.actor
  let (permission, err) ← Name.unmarshal old.permission
  pure (⟨actor, permission⟩, err)

/-- action.go:90-97: the loop, k iterations left -/
def authLoop : (k : Nat) → List PermissionLevel → Dec (List PermissionLevel × Option Err)
  | 0, auth => pure (auth, none)
  | k + 1, auth => do
    let (pl, err) ← PermissionLevel.unmarshal .zero
    match err with
    | some e => pure (auth, some e)
    | none => authLoop k (auth ++ [pl])

/-- action.go:83-99 `Action.UnmarshalABI`: the errors of the first two reads are dropped, the authorizations are appended to those already there. -/
def Action.unmarshal (old : Action) : Dec (Action × Option Err) := do
  let (account, _) ← Name.unmarshal old.account
  let (name, _) ← Name.unmarshal old.name
  let (l, err) ← readVaruint
  match err with
  | some e => pure (⟨account, name, old.authorization, old.data⟩, some e)
  | none =>
    let (auth, err) ← authLoop (goInt l).toNat old.authorization
    match err with
    | some e => pure (⟨account, name, auth, old.data⟩, some e)
    | none =>
      let (data, err) ← BytesT.unmarshal old.data
      pure (⟨account, name, auth, data⟩, err)

/-- action.go:42-49 `Action.Digest`, with checksum.go:32-39 -/
def Action.digest (sha : Sha256) (a : Action) : Pan Bytes :=
  match a.marshal.run with
  | .ok none bs => .val ((sha.sum bs).take 32)
  | .ok (some _) _ => .panic "error from MarshalABI"
  | .panic w => .panic w
  | .diverge => .panic "unreachable: MarshalABI has no unbounded loop"

/-- transaction.go:28-52 `TransactionHeader.MarshalABI` -/
def TxHeader.marshal (h : TxHeader) : Enc (Option Err) := do
  match ← TimePointSec.marshal h.expiration with
  | some e => pure (some e)
  | none =>
    match ← writeUint16 h.refBlockNum with
    | some e => pure (some e)
    | none =>
      match ← writeUint32 h.refBlockPrefix with
      | some e => pure (some e)
      | none =>
        match ← writeVaruint h.maxNetUsageWords with
        | some e => pure (some e)
        | none =>
          match ← writeUint8 h.maxCpuUsageMs with
          | some e => pure (some e)
          | none => writeVaruint h.delaySec

/-- transaction.go:54-62 `TransactionExtension.MarshalABI` -/
def TxExtension.marshal (x : TxExtension) : Enc (Option Err) := do
  match ← writeUint16 x.type with
  | some e => pure (some e)
  | none => BytesT.marshal x.data

/-- transaction.go:70-80, :81-91, :92-102: length and elements of a slice, then `k` -/
def encSlice {α : Type} (enc : α → Enc (Option Err)) (xs : List α) (k : Enc (Option Err)) : Enc (Option Err) := do
  match ← writeVaruint xs.length.toUInt64 with
  | some e => pure (some e)
  | none => encEach enc k xs

/-- transaction.go:64-104 `Transaction.MarshalABI` -/
def Transaction.marshal (tx : Transaction) : Enc (Option Err) := do
  match ← tx.header.marshal with
  | some e => pure (some e)
  | none =>
    encSlice Action.marshal tx.contextFreeActions <|
    encSlice Action.marshal tx.actions <|
    encSlice TxExtension.marshal tx.extensions <| pure none

/-- transaction.go:108-132 `TransactionHeader.UnmarshalABI`; the reading methods return 0 with an error, which is stored -/
def TxHeader.unmarshal (h : TxHeader) : Dec (TxHeader × Option Err) := do
  let (x, err) ← TimePointSec.unmarshal h.expiration
  let h := { h with expiration := x }
  match err with
  | some e => pure (h, some e)
  | none =>
    let (x, err) ← readUint16
    let h := { h with refBlockNum := x }
    match err with
    | some e => pure (h, some e)
    | none =>
      let (x, err) ← readUint32
      let h := { h with refBlockPrefix := x }
      match err with
      | some e => pure (h, some e)
      | none =>
        let (x, err) ← readVaruint
        let h := { h with maxNetUsageWords := x }
        match err with
        | some e => pure (h, some e)
        | none =>
          let (x, err) ← readUint8
          let h := { h with maxCpuUsageMs := x }
          match err with
          | some e => pure (h, some e)
          | none =>
            let (x, err) ← readVaruint
            pure ({ h with delaySec := x }, err)

/-- transaction.go:134-142 `TransactionExtension.UnmarshalABI` -/
def TxExtension.unmarshal (x : TxExtension) : Dec (TxExtension × Option Err) := do
  let (t, err) ← readUint16
  match err with
  | some e => pure (⟨t, x.data⟩, some e)
  | none =>
    let (d, err) ← BytesT.unmarshal x.data
    pure (⟨t, d⟩, err)

/-- transaction.go:151-161, :162-172, :173-183: length, `make`, elements; the old slice is kept if the length cannot be read -/
def decSlice {α : Type} (zero : α) (size : Nat) (dec : α → Dec (α × Option Err)) (old : List α) : Dec (List α × Option Err) := do
  let (l, err) ← readVaruint
  match err with
  | some e => pure (old, some e)
  | none => makeSlice zero size l fun xs => decEach dec xs

/-- transaction.go:144-185 `Transaction.UnmarshalABI`. An Action takes 64 bytes, a TransactionExtension 32. -/
def Transaction.unmarshal (tx : Transaction) : Dec (Transaction × Option Err) := do
  let (h, err) ← tx.header.unmarshal
  let tx := { tx with header := h }
  match err with
  | some e => pure (tx, some e)
  | none =>
    let (xs, err) ← decSlice Action.zero 64 Action.unmarshal tx.contextFreeActions
    let tx := { tx with contextFreeActions := xs }
    match err with
    | some e => pure (tx, some e)
    | none =>
      let (xs, err) ← decSlice Action.zero 64 Action.unmarshal tx.actions
      let tx := { tx with actions := xs }
      match err with
      | some e => pure (tx, some e)
      | none =>
        let (xs, err) ← decSlice TxExtension.zero 32 TxExtension.unmarshal tx.extensions
        pure ({ tx with extensions := xs }, err)

end Verif
