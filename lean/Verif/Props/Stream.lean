import Verif.Lemmas.Faults
import Verif.Lemmas.PrimStrict
/-! # C07–C10: how decoders and encoders use the stream, generic part

`Dec` covers every function of the model that reads from a Decoder, so C07 holds for all of them at once. -/
namespace Verif

/-- The reader delivers no transient faults: every event of its schedule is a (possibly short or empty) successful read. -/
def Reader.NoFaults (r : Reader) : Prop := ∀ ev ∈ r.sched, ∃ n, ev = .chunk n

theorem Reader.NoFaults.isChunk {r : Reader} (h : r.NoFaults) : ∀ e ∈ r.sched, e.isChunk := by
  intro e he
  obtain ⟨n, rfl⟩ := h e he
  trivial

/-- C07. Two readers over the same bytes, ending with the same error, chopped up in any way: same value (and error), same remaining
bytes, same panics. -/
theorem C07_chunking {α : Type} (p : Dec α) (r₁ r₂ : Reader) (hd : r₁.data = r₂.data) (hf : r₁.fin = r₂.fin)
    (h₁ : r₁.NoFaults) (h₂ : r₂.NoFaults) : (p.runR r₁).forget = (p.runR r₂).forget := by
  rw [Dec.runR_eq p r₁ h₁.isChunk, Dec.runR_eq p r₂ h₂.isChunk, hd, hf]

/-- C07, against `bytes.Reader`. -/
theorem C07_chunking_list {α : Type} (p : Dec α) (r : Reader) (hf : r.fin = .eof) (h : r.NoFaults) :
    (p.runR r).forget = p.run r.data := by
  rw [Dec.runR_eq p r h.isChunk, hf]

/-- Non-vacuity: a reader that returns an empty read, then one byte, then two at a time with EOF together with the last byte. -/
example : (readUint32.runR ⟨[1, 2, 3, 4], [.chunk 0, .chunk 1, .chunk 2], .eof, true⟩).forget = .ok (0x04030201, none) [] := by
  rw [C07_chunking_list _ _ rfl (by intro ev h; simp at h; rcases h with rfl | rfl | rfl <;> exact ⟨_, rfl⟩)]
  rfl

/-- C08, generic part: a strict decode function that succeeds consumed a definite prefix `c` of the stream; on `c` followed by anything
else, ending in any way, it returns the same value and leaves exactly what follows. -/
theorem C08_locality {α : Type} (s : Bool) (p : Dec (α × Option Err)) (hp : p.Strict s) (fin : Err) (bs : Bytes) (a : α) (r : Bytes)
    (h : p.runE fin bs = .ok (a, none) r) :
    ∃ c, bs = c ++ r ∧ ∀ fin' rest, p.runE fin' (c ++ rest) = .ok (a, none) rest :=
  hp.local fin bs a r h

/-- C09, generic part: cutting what a strict decode function consumes anywhere makes it return `io.EOF` or `io.ErrUnexpectedEOF`. -/
theorem C09_truncation {α : Type} (s : Bool) (p : Dec (α × Option Err)) (hp : p.Strict s) (bs : Bytes) (a : α) (h : p.Reads bs a)
    (n : Nat) (hn : n < bs.length) :
    ∃ a' e, p.run (bs.take n) = .ok (a', some e) [] ∧ (e = .eof ∨ e = .unexpectedEOF) := by
  obtain ⟨a', e, h1, h2⟩ := hp.truncated h .eof n hn
  refine ⟨a', e, h1, ?_⟩
  rcases h2 with h2 | h2
  · exact Or.inl h2
  · exact Or.inr h2.2

/-- C09, transient faults: if any read fails on the way, a strict function does not return a nil error with other data than the stream's. -/
theorem C09_faults {α : Type} (p : Dec (α × Option Err)) (hp : p.Strict false) (r r' : Reader) (a : α)
    (h : p.runR r = .ok (a, none) r') : p.run r.data = .ok (a, none) r'.data :=
  (hp (fun _ => True) (fun _ => trivial)).faulty (fun _ => trivial) .eof r a r' h

/-- C10, generic part: a strict encode function returns the error of the first write that fails, and what it has written is the beginning of what it writes if none fails. -/
theorem C10_write_errors (p : Enc (Option Err)) (hp : p.Strict) (w : Nat → WEv) (e : Option Err) (out : Bytes)
    (h : p.runW w = .ok e out true) : ∃ i n e', (∀ j, j < i → w j = .ok) ∧ w i = .fail n e' ∧ e = some e' ∧ ∀ x b, p.run = .ok x b → out <+: b := by
  induction p generalizing w out with
  | ret a => cases h
  | panic w => cases h
  | diverge => cases h
  | write bs k ih =>
    simp only [Enc.runW] at h
    cases hw : w 0 with
    | ok =>
      rw [hw] at h
      cases hk : (k none).runW (fun i => w (i + 1)) with
      | panic x => rw [hk] at h; cases h
      | diverge => rw [hk] at h; cases h
      | ok c o f =>
        rw [hk] at h
        simp only [WOut.prepend, WOut.ok.injEq, Bool.false_or] at h
        obtain ⟨rfl, rfl, rfl⟩ := h
        obtain ⟨i, n, e', h1, h2, h3, h4⟩ := ih none hp.2 _ _ hk
        refine ⟨i + 1, n, e', fun j hj => ?_, h2, h3, fun x b hb => ?_⟩
        · cases j with
          | zero => exact hw
          | succ j => exact h1 j (by omega)
        · have hb' : ((k none).run).prepend bs = .ok x b := hb
          cases hr : (k none).run with
          | ok c o' => rw [hr] at hb'; cases hb'; exact (List.prefix_append_right_inj bs).2 (h4 _ _ hr)
          | panic x => rw [hr] at hb'; cases hb'
          | diverge => rw [hr] at hb'; cases hb'
    | fail n e' =>
      rw [hw] at h
      simp only [hp.1 e', Enc.runW, WOut.prepend, WOut.ok.injEq, List.append_nil] at h
      obtain ⟨rfl, rfl, _⟩ := h
      refine ⟨0, n, e', fun j hj => absurd hj (Nat.not_lt_zero _), hw, rfl, fun x b hb => ?_⟩
      have hb' : ((k none).run).prepend bs = .ok x b := hb
      cases hr : (k none).run with
      | ok c o' => rw [hr] at hb'; cases hb'; exact (List.take_prefix n bs).trans (List.prefix_append bs o')
      | panic x => rw [hr] at hb'; cases hb'
      | diverge => rw [hr] at hb'; cases hb'

/-- C08/C09 for the reading methods of abi.Decoder (decode.go:327-446): all of them are strict, so `C08_locality`, `C09_truncation` and
`C09_faults` apply. -/
theorem C09_primitives_strict (s : Bool) :
    readByte.Strict s ∧ readUint8.Strict s ∧ readUint16.Strict s ∧ readUint32.Strict s ∧ readUint64.Strict s ∧
    readInt8.Strict s ∧ readInt16.Strict s ∧ readInt32.Strict s ∧ readInt64.Strict s ∧ readFloat32.Strict s ∧
    readFloat64.Strict s ∧ readBool.Strict s ∧ readVaruint.Strict s ∧ readVarintD.Strict s ∧ readString.Strict s :=
  ⟨readByte_strict s, readUint8_strict s, readUint16_strict s, readUint32_strict s, readUint64_strict s, readInt8_strict s,
    readInt16_strict s, readInt32_strict s, readInt64_strict s, readFloat32_strict s, readFloat64_strict s, readBool_strict s,
    readVaruint_strict s, readVarintD_strict s, readString_strict s⟩

/-- C10 for the writing methods of abi.Encoder (encode.go:159-245). -/
theorem C10_primitives_strict :
    (∀ v, (writeBytes v).Strict) ∧ (∀ v, (writeByte v).Strict) ∧ (∀ v, (writeBool v).Strict) ∧ (∀ v, (writeUint16 v).Strict) ∧
    (∀ v, (writeUint32 v).Strict) ∧ (∀ v, (writeUint64 v).Strict) ∧ (∀ v, (writeInt8 v).Strict) ∧ (∀ v, (writeInt16 v).Strict) ∧
    (∀ v, (writeInt32 v).Strict) ∧ (∀ v, (writeInt64 v).Strict) ∧ (∀ v, (writeVaruint v).Strict) ∧ (∀ v, (writeVarint v).Strict) ∧
    (∀ v, (writeString v).Strict) :=
  ⟨writeBytes_strict, writeByte_strict, writeBool_strict, writeUint16_strict, writeUint32_strict, writeUint64_strict, writeInt8_strict,
    writeInt16_strict, writeInt32_strict, writeInt64_strict, writeVaruint_strict, writeVarint_strict, writeString_strict⟩

/-- Non-vacuity: `ReadUint16` on a one-byte stream. -/
example : readUint16.run [7] = .ok (0, some .unexpectedEOF) [] := by rfl

/-- Non-vacuity: the second of the two writes of WriteString fails after one byte. -/
example : (writeString (asc "foo")).runW (fun i => if i = 1 then .fail 1 (.io 5) else .ok) = .ok (some (.io 5)) [3, 102] true := by
  rfl

end Verif
