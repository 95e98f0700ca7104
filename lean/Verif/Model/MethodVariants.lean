import Verif.Model.Methods
/-! # DecodeVariant of types of the user with methods -/
namespace Verif

section
variable (M : Program)

/-- decode.go:125-137: the selected field must be a pointer (its kind is that of the underlying type); a new variable is decoded, then stored -/
def fieldM : (t : MTy) → t.bare.Val → Dec (t.bare.Val × Option Err)
  | .plain t, old => decodeWith chainDecoder t .member old
  | .own _ t, old => fieldM t old
  | .ptr t, old => do
    let (x, err) ← decodeM M t .decode t.bare.zero
    match err with
    | some e => pure (old, some e)
    | none => pure ((some x : Option t.bare.Val), none)
  | .slice _, old => pure (old, some errVariantMember)
  | .array _ _, old => pure (old, some errVariantMember)
  | .map _ _, old => pure (old, some errVariantMember)
  | .struct _, old => pure (old, some errVariantMember)

/-- decode.go:125: the field with the index -/
def memberM : (fs : MFields) → Nat → fs.bare.Val → Dec (fs.bare.Val × Option Err)
  | .nil, _, old => pure (old, some errVariantIndex)
  | .cons _ t fs, 0, old => do
    let (x, xs) : t.bare.Val × fs.bare.Val := old
    let (y, err) ← fieldM M t x
    pure (((y, xs) : t.bare.Val × fs.bare.Val), err)
  | .cons _ t fs, n + 1, old => do
    let (x, xs) : t.bare.Val × fs.bare.Val := old
    let (ys, err) ← memberM fs n xs
    pure (((x, ys) : t.bare.Val × fs.bare.Val), err)

/-- decode.go:107-139, after the index is read: `indirect` (:454-520) follows pointers, sets nil ones, and stops at a type with UnmarshalABI -/
def variantM : (t : MTy) → Nat → t.bare.Val → Dec (t.bare.Val × Option Err)
  | .plain t, idx, old => decodeWith chainDecoder t (.variant idx) old
  | .own i t, idx, old =>
    match (M i t).unmarshal with
    | some u => u old
    | none => variantM t idx old
  | .ptr t, idx, old => do
    let (x, err) ← variantM t idx (Option.getD (α := t.bare.Val) old t.bare.zero)
    pure ((some x : Option t.bare.Val), err)
  | .slice _, _, old => pure (old, some errVariantKind)
  | .array _ _, _, old => pure (old, some errVariantKind)
  | .map _ _, _, old => pure (old, some errVariantKind)
  | .struct fs, idx, old =>
    if idx ≥ fs.bare.count then pure (old, some errVariantIndex)
    else
      match fs.bare.clear (some idx) old with
      | none => .panic "reflect: call of reflect.Value.IsNil on a value that cannot be nil, or Set on an unexported field"
      | some cleared => memberM M fs idx cleared

/-- decode.go:97-140 `chain.NewDecoder(r).DecodeVariant(&x)` -/
def decodeVariantM (t : MTy) (old : t.bare.Val) : Dec (t.bare.Val × Option Err) := do
  let (idx, err) ← readByte
  match err with
  | some e => pure (old, some e)
  | none => variantM M t idx.toNat old
end

/-- Not code of the repository: a program in which UnmarshalABI of every declared type is `return dec.DecodeVariant(v)`, with v its receiver. The number bounds the depth of the calls. -/
def variantCallers : Nat → Program
  | 0 => fun _ _ => ⟨.none, fun _ => pure none, pure none, some fun _ => .diverge⟩
  | n + 1 => fun i t => ⟨.none, fun _ => pure none, pure none, some fun old => decodeVariantM (variantCallers n) (.own i t) old⟩

end Verif
