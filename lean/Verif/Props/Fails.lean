import Verif.Lemmas.FailsKnown
import Verif.Props.ReflectEnds
import Verif.Props.Recursive
/-! C94: how Decode refuses an input -/
namespace Verif
open Dec

/-- The methods of package chain fail exactly as `ChainTy.Failure` says. -/
theorem C94_chain (c : ChainTy) (fin : Err) (s : Bytes) (x : Failure) : ((c.unmarshal c.zero).runE fin s).Faults x ↔ c.Failure fin s x := chain_faults c fin s x

/-- Decode(&x) fails exactly as `Ty.Fails` says: the error, a panic, or recursion without end. -/
theorem C94_decode (t : Ty) (_ht : t.Keyed) (fin : Err) (s : Bytes) (x : Failure) : ((decode t t.zero).runE fin s).Faults x ↔ t.Fails fin .decode s x := ty_faults t .decode fin s x

/-- DecodeVariant(&x). -/
theorem C94_variant (t : Ty) (_ht : t.Keyed) (fin : Err) (s : Bytes) (x : Failure) :
    ((decodeVariant t t.zero).runE fin s).Faults x ↔ Torn 1 fin s x ∨ ∃ (idx : UInt8) (s' : Bytes), s = idx :: s' ∧ t.Fails fin (.variant idx.toNat) s' x := by
  have h := readByte_faults.bind (f := fun x => match x with | (idx, err) => match err with | some e => pure (t.zero, some e) | none => decodeWith chainDecoder t (.variant idx.toNat) t.zero)
    readByte_does.yields (fun idx => ty_faults t (.variant idx.toNat)) fun _ _ => ⟨_, rfl⟩
  refine (h fin s x).trans (or_congr Iff.rfl ⟨?_, ?_⟩)
  · rintro ⟨idx, m, ⟨_, rfl, rfl⟩, h⟩
    exact ⟨idx, m, rfl, h⟩
  · rintro ⟨idx, m, rfl, h⟩
    exact ⟨idx, m, ⟨[idx], rfl, rfl⟩, h⟩

/-- Every input gives exactly one value or fails in exactly one way. -/
theorem C94_total (t : Ty) (_ht : t.Keyed) (fin : Err) (s : Bytes) :
    (∃ v r, t.Gives fin .decode v s r ∧ (∀ v' r', t.Gives fin .decode v' s r' → v' = v ∧ r' = r) ∧ ∀ x, ¬ t.Fails fin .decode s x) ∨
    ∃ x, t.Fails fin .decode s x ∧ (∀ x', t.Fails fin .decode s x' → x' = x) ∧ ∀ v r, ¬ t.Gives fin .decode v s r := by
  have hg := (ty_does t .decode).gives fin s
  have hf := ty_faults t .decode fin s
  rcases Out.faults_or ((decodeWith chainDecoder t .decode t.zero).runE fin s) with ⟨v, r, h⟩ | ⟨x, h⟩
  · refine .inl ⟨v, r, (hg v r).1 h, fun v' r' h' => ?_, fun x hx => ?_⟩
    · have := (hg v' r').2 h'
      rw [h] at this
      cases this
      exact ⟨rfl, rfl⟩
    · have := (hf x).2 hx
      rw [h] at this
      exact Out.faults_ok x this
  · refine .inr ⟨x, (hf x).1 h, fun x' h' => Out.faults_unique ((hf x').2 h') h, fun v r h' => ?_⟩
    rw [(hg v r).2 h'] at h
    exact Out.faults_ok x h

/-- io.EOF is returned where C93 says, and with no other reader. -/
theorem C94_eof (t : Ty) (_ht : t.Keyed) (fin : Err) (s : Bytes) : t.Fails fin .decode s (.err .eof) ↔ fin = .eof ∧ t.Stops .decode s := by
  refine (ty_faults t .decode fin s _).symm.trans ⟨?_, ?_⟩
  · rintro ⟨v, r, h⟩
    have := ((ty_does t .decode).stops fin s r).1 ⟨v, h⟩
    exact ⟨this.1, this.2.1⟩
  · rintro ⟨h1, h2⟩
    obtain ⟨v, hv⟩ := ((ty_does t .decode).stops fin s []).2 ⟨h1, h2, rfl⟩
    exact ⟨v, [], hv⟩

/-- An error of Decode is that of the reader, io.ErrUnexpectedEOF in place of io.EOF, or one of seven messages. -/
theorem C94_errors (t : Ty) (_ht : t.Keyed) (fin : Err) (s : Bytes) (v : t.Val) (e : Err) (r : Bytes) (h : (decode t t.zero).runE fin s = .ok (v, some e) r) :
    e = fin ∨ fin = .eof ∧ e = .unexpectedEOF ∨ ∃ msg ∈ decodeMessages, e = .msg msg :=
  ty_knows (P := True) fin t (.inl trivial) .decode s (.err e) ((ty_faults t .decode fin s (.err e)).1 ⟨v, r, h⟩)

/-- A reader that breaks: Decode never reports the end of the input. -/
theorem C94_broken (t : Ty) (_ht : t.Keyed) (code : Nat) (s : Bytes) (v : t.Val) (e : Err) (r : Bytes) (h : (decode t t.zero).runE (.io code) s = .ok (v, some e) r) :
    e = .io code ∨ ∃ msg ∈ decodeMessages, e = .msg msg := by
  rcases C94_errors t _ht _ s v e r h with h | ⟨h, _⟩ | h
  · exact .inl h
  · cases h
  · exact .inr h

/-- Decode ends, for every type that is written out. -/
theorem C94_ends (t : Ty) (ht : t.Refless) (fin : Err) (s : Bytes) : (decode t t.zero).runE fin s ≠ .diverge := fun h =>
  ty_knows (P := False) fin t (.inr ht) .decode s .endless ((ty_faults t .decode fin s .endless).1 h)

/-- A type that mentions itself is unfolded to some depth (C77). A failure at one depth is the failure at every larger depth. -/
theorem C94_depth (D : Decls) (hD : D.Ok) (t : Ty) (ht : t.RefsOk D) (n k : Nat) (fin : Err) (s : Bytes) (x : Failure) (hx : x ≠ .endless) (h : (t.unfold D n).Fails fin .decode s x) :
    (t.unfold D (n + k)).Fails fin .decode s x := by
  have h1 := C77_depth_decode D hD t ht n k (t.unfold D n).zero fin s
  have h2 := (ty_faults (t.unfold D n) .decode fin s x).2 h
  rw [lift_zero D hD t k] at h1
  refine (ty_faults (t.unfold D (n + k)) .decode fin s x).1 ?_
  cases x with
  | err e =>
    obtain ⟨v, r, h2⟩ := h2
    exact ⟨_, r, h1.1 v _ r h2⟩
  | panic =>
    obtain ⟨w, h2⟩ := h2
    exact ⟨w, h1.2 w h2⟩
  | endless => exact absurd rfl hx

/-- If every mention is behind a byte of input, then at a depth beyond twice the length of the input there is a value or another failure than recursion. -/
theorem C94_depth_ends (D : Decls) (hD : D.Ok) (hg : ∀ i, (D i).Guarded) (t : Ty) (ht : t.RefsOk D) (n : Nat) (fin : Err) (s : Bytes) (hn : 2 * s.length < n) : ¬ (t.unfold D n).Fails fin .decode s .endless :=
  fun h => C77_decode_ends_partial D hD hg t ht n _ fin s hn ((ty_faults (t.unfold D n) .decode fin s .endless).2 h)

/-! ## Examples -/

/- three bytes of a uint32 -/
example : (Ty.basic .u32).Fails .eof .decode [1, 2, 3] (.err .unexpectedEOF) := .inl ⟨.inl rfl, by decide, rfl⟩
/- the reader breaks there -/
example : (Ty.basic .u32).Fails (.io 5) .decode [1, 2, 3] (.err (.io 5)) := .inl ⟨.inl rfl, by decide, rfl⟩
/- a slice of 2^62 uint64: `make` panics -/
example : ((decode (.slice (.basic .u64)) (Ty.slice (.basic .u64)).zero).runE .eof [128, 128, 128, 128, 128, 128, 128, 128, 64]).Faults .panic := ⟨_, by rfl⟩
example : (Ty.slice (.basic .u64)).Fails .eof .decode [128, 128, 128, 128, 128, 128, 128, 128, 64] .panic := (C94_decode (.slice (.basic .u64)) trivial _ _ _).1 ⟨_, by rfl⟩
/- a field that is not exported -/
example : (Ty.struct (.cons .unexported .none (.basic .u8) .nil)).Fails .eof .decode [1] .panic := rfl
/- type Tree struct { Children []Tree }: one child is announced, the input ends before it -/
example (k : Nat) : (treeTy.unfold treeDecls (3 + k)).Fails .eof .decode [1] (.err .eof) :=
  C94_depth treeDecls tree_ok treeTy (by exact (by decide +kernel : (treeDecls 0).layout 0 1 = (24, 8))) 3 k .eof [1] _ (by simp) ((ty_faults (treeTy.unfold treeDecls 3) .decode .eof [1] _).1 ⟨_, _, by rfl⟩)
example : ∀ i, (treeDecls i).Guarded := tree_guarded
example : extType.Refless := ⟨trivial, trivial, trivial⟩
/- the extension is absent and a field follows -/
def gapType : Ty := .struct (.cons .exported .none (.basic .u8) (.cons .exported .extension (.basic .u16) (.cons .exported .none (.basic .u8) .nil)))
example : gapType.Fails .eof .decode [1] (.err .eof) := (C94_decode gapType ⟨trivial, trivial, trivial, trivial⟩ _ _ _).1 ⟨_, _, by rfl⟩
/- half of the extension is there -/
example : extType.Fails .eof .decode [7, 2] (.err .unexpectedEOF) := (C94_decode extType ⟨trivial, trivial, trivial⟩ _ _ _).1 ⟨_, _, by rfl⟩
/- the number of a member that does not exist -/
def soleType : Ty := .struct (.cons .exported .none (.ptr (.basic .u8)) .nil)
example : ((decodeVariant soleType soleType.zero).runE .eof [1, 5]).Faults (.err (.msg "abi: variant index out of bounds")) :=
  (C94_variant soleType ⟨trivial, trivial⟩ _ _ _).2 (.inr ⟨1, [5], rfl, .inl ⟨by decide, rfl⟩⟩)
/- a key of an unknown type; an Action that ends in its second name -/
example : ChainTy.Failure .publicKey .eof [7, 1] (.err (.msg "unknown key type")) := .inr ⟨7, [1], rfl, .inr (.inl ⟨by decide, rfl⟩)⟩
example : ChainTy.Failure .action .eof [1, 2, 3, 4, 5, 6, 7, 8, 9] (.err .eof) := .inl ⟨by decide, rfl⟩

end Verif
