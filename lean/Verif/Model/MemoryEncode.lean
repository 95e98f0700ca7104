import Verif.Model.Memory
/-! # pkg/abi/encode.go with memory

As Model/Memory does for decode.go: pointers, slices and maps are addresses. The same simplifications apply. The encoder is the one of package chain. -/
namespace Verif

/-- `*p`: nothing is changed -/
def Heap.load {α : Type} (h : Heap) (f : Cell → Option α) (a : Nat) (k : α → Enc (Option Err)) : Enc (Option Err) :=
  match h[a]? with
  | none => .panic "invalid memory address"
  | some c => match f c with
    | none => .panic "invalid memory address"
    | some x => k x

mutual
/-- stdlib `reflect.Value.IsZero`, as `Ty.isZero`: pointers, slices and maps are zero if they are nil, whatever they refer to -/
def Ty.rawIsZero : (t : Ty) → t.Raw → Bool
  | .basic b, x => decide ((show b.Val from x) = b.zero)
  | .named b, x => decide ((show b.Val from x) = b.zero)
  | .unsupported, _ => true
  | .bytes, x => Option.isNone (α := Nat) x
  | .chain c, x => decide ((show c.Val from x) = c.zero)
  | .ptr _, x => Option.isNone (α := Nat) x
  | .slice _, x => Option.isNone (α := Nat) x
  | .array n t, x => decide (List.length (α := t.Raw) x = n) && List.all (α := t.Raw) x t.rawIsZero
  | .map _ _, x => Option.isNone (α := Nat) x
  | .struct fs, x => fs.rawIsZero x
  | .ref _ _ _, _ => true
/-- The same for fields -/
def Fields.rawIsZero : (fs : Fields) → fs.Raw → Bool
  | .nil, _ => true
  | .cons _ _ t fs, x =>
    let (y, ys) : t.Raw × fs.Raw := x
    t.rawIsZero y && fs.rawIsZero ys
end

mutual
/-- encode.go:28-77 `Encode`, :79-155 `EncodeValue`, as `encodeWith chainEncoder` -/
def encodeMem (h : Heap) : (t : Ty) → t.Raw → Enc (Option Err)
  | .basic b, x => encode (.basic b) x
  | .named b, x => encode (.named b) x
  | .unsupported, x => encode .unsupported x
  | .chain c, x => encode (.chain c) x
  | .ref i s a, x => encode (.ref i s a) x
  | .bytes, x =>
    match (show Option Nat from x) with
    | none => do
      match ← writeVaruint 0 with
      | some e => pure (some e)
      | none => writeBytes []
    | some a => h.load (Cell.asArr (.basic .u8)) a fun (b : Bytes) => do
      match ← writeVaruint b.length.toUInt64 with
      | some e => pure (some e)
      | none => writeBytes b
  | .ptr t, x =>
    match t, (show Option Nat from x) with
    | .chain _, none => .panic "nil pointer dereference"
    | .chain c, some a => h.load (Cell.asVar (.chain c)) a c.marshal
    | _, none => pure (some errNilPtr)
    | t, some a => h.load (Cell.asVar t) a (encodeMem h t)
  | .slice t, x =>
    let go (ys : List t.Raw) : Enc (Option Err) := do
      match ← writeVaruint ys.length.toUInt64 with
      | some e => pure (some e)
      | none => encEach (encodeMem h t) (pure none) ys
    match (show Option Nat from x) with
    | none => go []
    | some a => h.load (Cell.asArr t) a go
  | .array _ t, x => encEach (encodeMem h t) (pure none) (show List t.Raw from x)
  | .map k e, x =>
    let go (m : List (k.Val × e.Raw)) : Enc (Option Err) := do
      match ← writeVaruint m.length.toUInt64 with
      | some e => pure (some e)
      | none => encEach (fun (x, y) => do
          match ← encode k x with
          | some e => pure (some e)
          | none => encodeMem h e y) (pure none) m
    match (show Option Nat from x) with
    | none => go []
    | some a => h.load (Cell.asMap k e) a go
  | .struct fs, x => encodeMemFields h fs x
/-- encode.go:111-125 -/
def encodeMemFields (h : Heap) : (fs : Fields) → fs.Raw → Enc (Option Err)
  | .nil, _ => pure none
  | .cons vis tag t fs, x =>
    let (y, ys) : t.Raw × fs.Raw := x
    encodeField vis tag (t.rawIsZero y) (encodeMem h t y) (encodeMemFields h fs ys)
end

/-- `Encode(*p)` for the variable of type t at p (encode.go:28-77) -/
def encodeAt (h : Heap) (t : Ty) (p : Nat) : Enc (Option Err) := h.load (Cell.asVar t) p (encodeMem h t)

end Verif
