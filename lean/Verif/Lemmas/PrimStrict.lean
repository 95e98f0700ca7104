import Verif.Lemmas.Strict
import Verif.Lemmas.Prim
/-! Every primitive reading method gives up on the first failed read; every primitive writing method reports a failed write. -/
namespace Verif

theorem Dec.StrictP.ret {α : Type} {s : Bool} {P : Err → Prop} (a : α × Option Err) : (Dec.ret a).StrictP s P := trivial
theorem Dec.StrictP.pure {α : Type} {s : Bool} {P : Err → Prop} (a : α × Option Err) : (Pure.pure a : Dec _).StrictP s P := trivial
theorem Dec.StrictP.panic {α : Type} {s : Bool} {P : Err → Prop} (w : String) : (Dec.panic w : Dec (α × Option Err)).StrictP s P := trivial
theorem Dec.AllErr.pure {α : Type} {s : Bool} {P : Err → Prop} (a : α) (e : Err) (h : P e) :
    (Pure.pure (a, some e) : Dec _).AllErr s P := h

/-- `readBytes` viewed as returning (count and bytes, error). -/
theorem readBytes_bind_strict {β : Type} {s : Bool} {P : Err → Prop} (n : Int) (g : Nat × Bytes × Option Err → Dec (β × Option Err))
    (hn : ∀ r, (g r).StrictP s P) (he : ∀ a b e, P e → (g (a, b, some e)).AllErr s P) : (readBytes n >>= g).StrictP s P := by
  unfold readBytes
  split
  · exact hn _
  · split
    · exact hn _
    · split
      · trivial
      · exact ⟨by omega, fun b c e h => he c b e h, fun b hb => hn _⟩

theorem readBytes_bind_allErr {β : Type} {P : Err → Prop} (n : Int) (h0 : 0 < n) (hm : n.toNat ≤ maxAlloc)
    (g : Nat × Bytes × Option Err → Dec (β × Option Err))
    (he : ∀ a b e, P e → (g (a, b, some e)).AllErr true P) : (readBytes n >>= g).AllErr true P := by
  unfold readBytes
  rw [if_neg (by omega), if_neg (by omega), if_neg (by omega)]
  refine ⟨?_, fun b c e h => he c b e h⟩
  simp; omega

/-- Strictness of `let (a, err) ← p; match err with | some e => pure (_, some e) | none => …`; leaves the last branch. -/
macro "strict_try " t:term : tactic =>
  `(tactic| (refine Dec.StrictP.bind $t ?_ (fun _ _ h => h); rintro ⟨a, _ | e⟩; rotate_left; trivial))

theorem readByte_strict (s : Bool) : readByte.Strict s := by
  intro P _
  apply readBytes_bind_strict
  · rintro ⟨a, b, _ | e⟩ <;> trivial
  · intro a b e h; exact h

theorem readUint64_strict (s : Bool) : readUint64.Strict s := by
  intro P _
  apply readBytes_bind_strict
  · rintro ⟨a, b, _ | e⟩ <;> trivial
  · intro a b e h; exact h

theorem readUint32_strict (s : Bool) : readUint32.Strict s := by
  intro P _
  apply readBytes_bind_strict
  · rintro ⟨a, b, _ | e⟩ <;> trivial
  · intro a b e h; exact h

theorem readUint16_strict (s : Bool) : readUint16.Strict s := by
  intro P _
  apply readBytes_bind_strict
  · rintro ⟨a, b, _ | e⟩ <;> trivial
  · intro a b e h; exact h

theorem readUint8_strict (s : Bool) : readUint8.Strict s := by
  intro P h; strict_try (readByte_strict s P h); trivial
theorem readInt64_strict (s : Bool) : readInt64.Strict s := by
  intro P h; strict_try (readUint64_strict s P h); trivial
theorem readInt32_strict (s : Bool) : readInt32.Strict s := by
  intro P h; strict_try (readUint32_strict s P h); trivial
theorem readInt16_strict (s : Bool) : readInt16.Strict s := by
  intro P h; strict_try (readUint16_strict s P h); trivial
theorem readInt8_strict (s : Bool) : readInt8.Strict s := by
  intro P h; strict_try (readByte_strict s P h); trivial
theorem readFloat32_strict (s : Bool) : readFloat32.Strict s := by
  intro P h; strict_try (readUint32_strict s P h); trivial
theorem readFloat64_strict (s : Bool) : readFloat64.Strict s := by
  intro P h; strict_try (readUint64_strict s P h); trivial

theorem readBool_strict (s : Bool) : readBool.Strict s := by
  intro P h
  apply (readByte_strict s P h).bind
  · rintro ⟨a, _ | e⟩ <;> trivial
  · intro a e h; exact h

theorem readUvarintLoop_strict (s : Bool) (left : Nat) (x sh : UInt64) : (readUvarintLoop readByte left x sh).Strict s := by
  intro P hc
  induction left generalizing x sh with
  | zero => trivial
  | succ left ih =>
    apply (readByte_strict s P hc).bind
    · rintro ⟨b, _ | e⟩
      · show (ite _ _ _ : Dec _).StrictP s P
        split
        · split <;> trivial
        · exact ih _ _
      · trivial
    · intro a e h
      show P _
      split
      · rename_i hh; exact hc (hh.1 ▸ h)
      · exact h

theorem readVaruint_strict (s : Bool) : readVaruint.Strict s := by
  intro P h; strict_try (readUvarintLoop_strict s 10 0 0 P h); trivial

theorem readVarintD_strict (s : Bool) : readVarintD.Strict s := by
  intro P h
  have h1 : (readVarint readByte).StrictP s P := by
    apply (readUvarintLoop_strict s 10 0 0 P h).bind
    · intro r; trivial
    · intro a e he; exact he
  strict_try h1; trivial

theorem readString_strict (s : Bool) : readString.Strict s := by
  intro P h
  strict_try (readVaruint_strict s P h)
  apply readBytes_bind_strict
  · rintro ⟨a, b, _ | e⟩ <;> trivial
  · intro a b e h; exact h

/-! ### Writers -/

theorem writeBytes_strict (bs : Bytes) : (writeBytes bs).Strict := Enc.Strict.write_ret bs
theorem writeByte_strict (b : UInt8) : (writeByte b).Strict := Enc.Strict.write_ret [b]
theorem writeBool_strict (b : Bool) : (writeBool b).Strict := by unfold writeBool; split <;> exact writeByte_strict _
theorem writeUint8_strict (v) : (writeUint8 v).Strict := writeByte_strict v
theorem writeUint16_strict (v) : (writeUint16 v).Strict := writeBytes_strict _
theorem writeUint32_strict (v) : (writeUint32 v).Strict := writeBytes_strict _
theorem writeUint64_strict (v) : (writeUint64 v).Strict := writeBytes_strict _
theorem writeInt8_strict (v) : (writeInt8 v).Strict := writeByte_strict _
theorem writeInt16_strict (v) : (writeInt16 v).Strict := writeBytes_strict _
theorem writeInt32_strict (v) : (writeInt32 v).Strict := writeBytes_strict _
theorem writeInt64_strict (v) : (writeInt64 v).Strict := writeBytes_strict _
theorem writeVaruint_strict (v) : (writeVaruint v).Strict := by
  unfold writeVaruint; split
  · exact writeBytes_strict _
  · trivial
theorem writeVarint_strict (v) : (writeVarint v).Strict := by
  unfold writeVarint; split
  · exact writeBytes_strict _
  · trivial
theorem Enc.Strict.seq {p : Enc (Option Err)} {q : Enc (Option Err)} (hp : p.Strict) (hq : q.Strict) :
    (p >>= fun e => match e with | some e => Pure.pure (some e) | none => q).Strict := by
  exact hp.bindE (fun _ => rfl) hq
theorem writeString_strict (v) : (writeString v).Strict := (writeVaruint_strict _).seq (writeBytes_strict _)

end Verif
