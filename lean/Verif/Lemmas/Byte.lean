/-! Exhaustion over bytes. -/
namespace Verif

/-- A statement about all bytes is a statement about the 256 byte values. -/
theorem forall_byte {P : UInt8 → Prop} (h : ∀ i : Fin 256, P (UInt8.ofNat i.val)) (b : UInt8) : P b := by
  have := h ⟨b.toNat, b.toNat_lt⟩
  simpa using this

end Verif
