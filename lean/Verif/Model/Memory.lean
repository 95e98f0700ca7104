import Verif.Model.Reflect
/-! # pkg/abi/decode.go with memory

Model/Reflect treats the destination of `Decode` as a value. Here pointers, slices and maps are addresses, so that several of them can refer to the same
memory. Simplified: a slice is a whole array (no two slices overlap in part), there are no pointers into the inside of a struct, array or slice, map keys
contain no pointers, and the slices inside the types of package chain are values as in Model/Reflect (their UnmarshalABI allocates; only Action appends to a
slice). Types that mention themselves (`ref`) diverge as in Model/Reflect. The decoder is the one of package chain. -/
namespace Verif

deriving instance DecidableEq for Ty, Fields

mutual
/-- Values in memory: pointers, slices and maps are addresses, or `none` for nil -/
def Ty.Raw : Ty → Type
  | .basic b => b.Val
  | .named b => b.Val
  | .unsupported => Unit
  | .bytes => Option Nat
  | .chain c => c.Val
  | .ptr _ => Option Nat
  | .slice _ => Option Nat
  | .array _ t => List t.Raw
  | .map _ _ => Option Nat
  | .struct fs => fs.Raw
  | .ref _ _ _ => Unit
/-- Values of the fields in memory -/
def Fields.Raw : Fields → Type
  | .nil => Unit
  | .cons _ _ t fs => t.Raw × fs.Raw
end

mutual
/-- Go's zero values -/
def Ty.rawZero : (t : Ty) → t.Raw
  | .basic b => b.zero
  | .named b => b.zero
  | .unsupported => ()
  | .bytes => (none : Option Nat)
  | .chain c => c.zero
  | .ptr _ => (none : Option Nat)
  | .slice _ => (none : Option Nat)
  | .array n t => (List.replicate n t.rawZero : List t.Raw)
  | .map _ _ => (none : Option Nat)
  | .struct fs => fs.rawZero
  | .ref _ _ _ => ()
/-- Zero values of the fields -/
def Fields.rawZero : (fs : Fields) → fs.Raw
  | .nil => ()
  | .cons _ _ t fs => (t.rawZero, fs.rawZero)
end

/-- What is at an address: a variable (`reflect.New`), the array behind a slice (`reflect.MakeSlice`, `make`), a map (`reflect.MakeMap`) -/
inductive Cell where
  | var (t : Ty) (x : t.Raw)
  | arr (t : Ty) (xs : List t.Raw)
  | map (k e : Ty) (m : List (k.Val × e.Raw))

/-- Memory; addresses are positions -/
abbrev Heap := List Cell

/-- A function that reads from the decoder and works on memory -/
abbrev Mem (α : Type) := StateT Heap Dec α

/-- A function that does not touch memory -/
def Mem.of {α : Type} (p : Dec α) : Mem α := fun h => p >>= fun a => pure (a, h)
/-- Allocation: the new address -/
def Mem.new (c : Cell) : Mem Nat := fun h => pure (h.length, h ++ [c])
/-- `*p = x` -/
def Mem.store (a : Nat) (c : Cell) : Mem Unit := fun h => pure ((), h.set a c)

def Cell.asVar (t : Ty) : Cell → Option t.Raw
  | .var t' x => if e : t' = t then some (e ▸ x) else none
  | _ => none
def Cell.asArr (t : Ty) : Cell → Option (List t.Raw)
  | .arr t' xs => if e : t' = t then some (e ▸ xs) else none
  | _ => none
def Cell.asMap (k e : Ty) : Cell → Option (List (k.Val × e.Raw))
  | .map k' e' m => if h : k' = k ∧ e' = e then some (h.1 ▸ h.2 ▸ m) else none
  | _ => none

/-- `*p`; in Go there is always a value of the right type -/
def Mem.load {α : Type} (f : Cell → Option α) (a : Nat) : Mem α := fun h =>
  match h[a]? with
  | none => .panic "invalid memory address"
  | some c => match f c with
    | none => .panic "invalid memory address"
    | some x => pure (x, h)

/-- decode.go:33-36 and :112-114, :127-129, as `viaDecFn` for types chainDecoder does not know -/
def Mem.via {α : Type} (mode : Mode) (old : α) (fast slow : Mem (α × Option Err)) : Mem (α × Option Err) :=
  match mode with
  | .value => slow
  | .variant _ => pure (old, some errVariantKind)
  | .member => pure (old, some errVariantMember)
  | _ => fast

/-- decode.go:149-151, :165-167, :214-217 and `indirect` (:499-501): a nil pointer is set to a new variable -/
def Mem.ensure (t : Ty) : Option Nat → Mem Nat
  | some a => pure a
  | none => Mem.new (.var t t.rawZero)

/-- The loop over the elements, as `decEach` -/
def Mem.each {α : Type} (dec : α → Mem (α × Option Err)) : List α → Mem (List α × Option Err)
  | [] => pure ([], none)
  | x :: xs => do
    let (y, err) ← dec x
    match err with
    | some e => pure (y :: xs, some e)
    | none =>
      let (ys, err) ← Mem.each dec xs
      pure (y :: ys, err)

/-- The length of a slice -/
def Mem.len (t : Ty) : Option Nat → Mem Nat
  | none => pure 0
  | some a => do
    let xs ← Mem.load (Cell.asArr t) a
    pure xs.length

/-- decode.go:77-82 -/
def Mem.bytes (old : Option Nat) : Mem (Option Nat × Option Err) := do
  let (l, err) ← Mem.of readVaruint
  match err with
  | some e => pure (old, some e)
  | none =>
    let (_, b, err) ← Mem.of (readBytes (goInt l))
    if goInt l < 0 then pure (none, err)
    else
      let a ← Mem.new (.arr (.basic .u8) b)
      pure (some a, err)

/-- decode.go:253-274. The elements are written back after the loop instead of one by one: no element can refer to the array it is in. -/
def Mem.slice (t : Ty) (size : Nat) (dec : t.Raw → Mem (t.Raw × Option Err)) (old : Option Nat) : Mem (Option Nat × Option Err) := do
  let (l, err) ← Mem.of readVaruint
  match err with
  | some e => pure (old, some e)
  | none =>
    let n ← Mem.len t old
    if (n : Int) ≠ goInt l then
      fun h => makeSlice t.rawZero size l fun xs => (do
        let a ← Mem.new (.arr t xs)
        let (ys, err) ← Mem.each dec xs
        Mem.store a (.arr t ys)
        pure (some a, err) : Mem (Option Nat × Option Err)) h
    else
      match old with
      | none => pure (none, none)
      | some a => do
        let xs ← Mem.load (Cell.asArr t) a
        let (ys, err) ← Mem.each dec xs
        Mem.store a (.arr t ys)
        pure (some a, err)

/-- decode.go:188-203: the loop, as `mapLoop` -/
def Mem.mapLoop {α β : Type} [DecidableEq α] (dk : Dec (α × Option Err)) (dv : Mem (β × Option Err)) : Nat → List (α × β) → Mem (List (α × β) × Option Err)
  | 0, m => pure (m, none)
  | n + 1, m => do
    let (k, err) ← Mem.of dk
    match err with
    | some e => pure (m, some e)
    | none =>
      let (v, err) ← dv
      match err with
      | some e => pure (m, some e)
      | none => Mem.mapLoop dk dv n (mapSet k v m)

/-- decode.go:184-186: a new map unless the old one is there and empty -/
def Mem.ensureMap (k e : Ty) : Option Nat → Mem Nat
  | none => Mem.new (.map k e [])
  | some a => do
    let m ← Mem.load (Cell.asMap k e) a
    if m.length ≠ 0 then Mem.new (.map k e []) else pure a

/-- decode.go:177-204, written back after the loop -/
def Mem.map (k e : Ty) (dk : Dec (k.Val × Option Err)) (dv : Mem (e.Raw × Option Err)) (old : Option Nat) : Mem (Option Nat × Option Err) := do
  let (l, err) ← Mem.of readVaruint
  match err with
  | some e => pure (old, some e)
  | none =>
    let a ← Mem.ensureMap k e old
    let (m, err) ← Mem.mapLoop dk dv (goInt l).toNat []
    Mem.store a (.map k e m)
    pure (some a, err)

/-- decode.go:214-218 -/
def Ty.rawAlloc : (t : Ty) → t.Raw → Mem t.Raw
  | .ptr t, v => do
    let a ← Mem.ensure t v
    pure (some a : Option Nat)
  | _, v => pure v

/-- stdlib `reflect.Value.IsNil`: `none` where it panics -/
def Ty.rawIsNil : (t : Ty) → t.Raw → Option Bool
  | .ptr _, v => some (Option.isNone (α := Nat) v)
  | .slice _, v => some (Option.isNone (α := Nat) v)
  | .map _ _, v => some (Option.isNone (α := Nat) v)
  | .bytes, v => some (Option.isNone (α := Nat) v)
  | .chain .bytes, v => some (Option.isNone (α := Bytes) v)
  | .chain .blob, v => some (Option.isNone (α := Bytes) v)
  | _, _ => none

/-- decode.go:120-124, as `Fields.clear` -/
def Fields.rawClear : (fs : Fields) → Option Nat → fs.Raw → Option fs.Raw
  | .nil, _, _ => some ()
  | .cons vis _ t fs, idx, v =>
    let (x, xs) : t.Raw × fs.Raw := v
    let idx' : Option Nat := match idx with
      | some (n + 1) => some n
      | _ => none
    let x' : Option t.Raw :=
      if idx = some 0 then some x
      else match t.rawIsNil x with
        | none => none
        | some true => some x
        | some false => if vis = .exported then some t.rawZero else none
    match x', fs.rawClear idx' xs with
    | some x, some xs => some (x, xs)
    | _, _ => none

/-- decode.go:209-251, as `decodeField`; `alloc` is the allocation of :214-218, which comes before anything is read -/
def Mem.field {α β : Type} (vis : Vis) (tag : Tag) (x zero : α) (alloc : Mem α) (dec : Mode → α → Mem (α × Option Err)) (xs : β) (err : Option Err)
    (rest : Option Err → Mem (β × Option Err)) : Mem ((α × β) × Option Err) :=
  let next (y : α) (err : Option Err) : Mem ((α × β) × Option Err) := do
    let (ys, err) ← rest err
    pure ((y, ys), err)
  match vis with
  | .blank => next x err
  | .unexported => Mem.of (.panic "reflect: using value obtained using unexported field")
  | .exported => do
    let x' ← alloc
    match tag with
    | .none => do
      let (y, err) ← dec .elem x'
      match err with
      | some e => pure ((y, xs), some e)
      | none => next y none
    | .optional => do
      let (present, rerr) ← Mem.of readBool
      match rerr with
      | some e => pure ((x', xs), some e)
      | none =>
        if present then do
          let (y, err) ← dec .elem x'
          match err with
          | some e => pure ((y, xs), some e)
          | none => next y none
        else next zero err
    | .extension => do
      let (y, err) ← dec .elem x'
      match err with
      | some e => if e = .eof then next zero (some .eof) else pure ((y, xs), some e)
      | none => next y none
    | .variant => do
      let (idx, err) ← Mem.of readByte
      match err with
      | some e => pure ((x', xs), some e)
      | none =>
        let (y, err) ← dec (.variant idx.toNat) x'
        match err with
        | some e => pure ((y, xs), some e)
        | none => next y none

/-- Decode into the variable at an address -/
def Mem.at (t : Ty) (dec : t.Raw → Mem (t.Raw × Option Err)) (a : Nat) : Mem (Option Err) := do
  let x ← Mem.load (Cell.asVar t) a
  let (y, err) ← dec x
  Mem.store a (.var t y)
  pure err

mutual
/-- decode.go:30-94 `Decode`, :143-308 `DecodeValue`, :97-140 `DecodeVariant` without reading the index, :454-520 `indirect`, as `decodeWith`: the new content of
a destination that held `old`. A variable behind a pointer is written back after it is decoded: nothing in it can refer to it. -/
def decodeMem : (t : Ty) → Mode → t.Raw → Mem (t.Raw × Option Err)
  | .basic b, mode, old => Mem.of (decodeWith chainDecoder (.basic b) mode old)
  | .named b, mode, old => Mem.of (decodeWith chainDecoder (.named b) mode old)
  | .unsupported, mode, old => Mem.of (decodeWith chainDecoder .unsupported mode old)
  | .chain c, mode, old => Mem.of (decodeWith chainDecoder (.chain c) mode old)
  | .ref i s a, mode, old => Mem.of (decodeWith chainDecoder (.ref i s a) mode old)
  | .bytes, mode, old => Mem.via (α := Option Nat) mode old (Mem.bytes old)
      (Mem.slice (.basic .u8) 1 (fun _ => Mem.of readUint8) old)
  | .ptr t, mode, old =>
    let old : Option Nat := old
    let into (mode : Mode) : Mem (Option Nat × Option Err) := do
      let a ← Mem.ensure t old
      let err ← Mem.at t (decodeMem t mode) a
      pure (some a, err)
    match mode with
    | .elem => into .decode
    | .variant idx => into (.variant idx)
    | .member => do
      let a ← Mem.new (.var t t.rawZero)
      let err ← Mem.at t (decodeMem t .decode) a
      match err with
      | some e => pure (old, some e)
      | none => pure (some a, none)
    | _ => into .value
  | .slice t, mode, old => Mem.via (α := Option Nat) mode old (Mem.slice t t.size (decodeMem t .elem) old) (Mem.slice t t.size (decodeMem t .elem) old)
  | .array _ t, mode, old => Mem.via (α := List t.Raw) mode old (Mem.each (decodeMem t .elem) old) (Mem.each (decodeMem t .elem) old)
  | .map k e, mode, old =>
    Mem.via (α := Option Nat) mode old (Mem.map k e (decodeWith chainDecoder k .decode k.zero) (decodeMem e .decode e.rawZero) old)
      (Mem.map k e (decodeWith chainDecoder k .decode k.zero) (decodeMem e .decode e.rawZero) old)
  | .struct fs, mode, old =>
    match mode with
    | .variant idx =>
      if idx ≥ fs.count then pure (old, some errVariantIndex)
      else
        match fs.rawClear (some idx) old with
        | none => Mem.of (.panic "reflect: call of reflect.Value.IsNil on a value that cannot be nil, or Set on an unexported field")
        | some cleared => decodeMemMember fs idx cleared
    | mode => Mem.via (α := fs.Raw) mode old (decodeMemFields fs none old) (decodeMemFields fs none old)
/-- decode.go:206-251, :307, as `decodeFields` -/
def decodeMemFields : (fs : Fields) → (err : Option Err) → fs.Raw → Mem (fs.Raw × Option Err)
  | .nil, err, old => pure (old, err)
  | .cons vis tag t fs, err, old =>
    let (x, xs) : t.Raw × fs.Raw := old
    Mem.field vis tag x t.rawZero (t.rawAlloc x) (fun mode => decodeMem t mode) xs err (fun err => decodeMemFields fs err xs)
/-- decode.go:125-137, as `decodeMember` -/
def decodeMemMember : (fs : Fields) → Nat → fs.Raw → Mem (fs.Raw × Option Err)
  | .nil, _, old => pure (old, some errVariantIndex)
  | .cons vis _ t fs, 0, old => do
    let (x, xs) : t.Raw × fs.Raw := old
    let (y, err) ← decodeMem t .member x
    match err with
    | some e => pure ((y, xs), some e)
    | none => if vis = .exported then pure ((y, xs), none) else Mem.of (.panic "reflect: using value obtained using unexported field")
  | .cons _ _ t fs, n + 1, old => do
    let (x, xs) : t.Raw × fs.Raw := old
    let (ys, err) ← decodeMemMember fs n xs
    pure ((x, ys), err)
end

/-- `Decode(p)` for a pointer p to a variable of type t (decode.go:30-94) -/
def decodeAt (t : Ty) (p : Nat) : Mem (Option Err) := Mem.at t (decodeMem t .decode) p

/-- `DecodeVariant(p)` (decode.go:97-140) -/
def decodeVariantAt (t : Ty) (p : Nat) : Mem (Option Err) := do
  let (idx, err) ← Mem.of readByte
  match err with
  | some e => pure (some e)
  | none => Mem.at t (decodeMem t (.variant idx.toNat)) p

end Verif
