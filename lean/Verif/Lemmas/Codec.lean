import Verif.Lemmas.Run
import Verif.Spec.Codec
/-! Combining reads and writes. -/
namespace Verif

theorem Dec.Reads.bind {α β : Type} {p : Dec (α × Option Err)} {f : α × Option Err → Dec (β × Option Err)} {b1 b2 : Bytes} {a : α} {c : β}
    (hp : p.Reads b1 a) (hf : (f (a, none)).Reads b2 c) : (p >>= f).Reads (b1 ++ b2) c := by
  intro fin rest
  rw [Dec.runE_bind, List.append_assoc, hp fin, Out.bind_ok, hf fin]

/-- The last read of a function. -/
theorem Dec.Reads.last {α β : Type} {p : Dec (α × Option Err)} {f : α × Option Err → Dec (β × Option Err)} {b1 : Bytes} {a : α} {c : β}
    (hp : p.Reads b1 a) (hf : f (a, none) = Pure.pure (c, none)) : (p >>= f).Reads b1 c := by
  intro fin rest
  rw [Dec.runE_bind, hp fin, Out.bind_ok, hf, Dec.runE_pure]

theorem Dec.Reads.pure {α : Type} (a : α) : (Pure.pure (a, none) : Dec (α × Option Err)).Reads [] a := by
  intro fin rest; rfl

theorem Enc.Writes.bind {p : Enc (Option Err)} {g : Option Err → Enc (Option Err)} {b1 b2 : Bytes}
    (hp : p.Writes b1) (hg : (g none).Writes b2) : (p >>= g).Writes (b1 ++ b2) := by
  unfold Enc.Writes at *
  rw [Enc.run_bind, hp, EOut.bind_ok, hg, EOut.prepend_ok]

theorem Enc.Writes.pure : (Pure.pure none : Enc (Option Err)).Writes [] := rfl

theorem Enc.Writes.det {p : Enc (Option Err)} {b1 b2 : Bytes} (h1 : p.Writes b1) (h2 : p.Writes b2) : b1 = b2 := by
  unfold Enc.Writes at *; rw [h1] at h2; simpa using h2

theorem Dec.Reads.det {α : Type} {p : Dec (α × Option Err)} {bs : Bytes} {a b : α} (h1 : p.Reads bs a) (h2 : p.Reads bs b) : a = b := by
  have e1 := h1 .eof []
  rw [h2 .eof []] at e1
  simp at e1
  exact e1.symm

end Verif
