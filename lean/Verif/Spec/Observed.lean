import Verif.Spec.Codec
/-! # What callers see of a stream that ends early or fails -/
namespace Verif

/-- What p reads as a value, cut short anywhere: if the stream ends there, p returns io.EOF or io.ErrUnexpectedEOF; if the reader fails there for good, p returns the
reader's error. -/
def Dec.RefusesCut {α : Type} (p : Dec (α × Option Err)) : Prop := ∀ bs a, p.Reads bs a → ∀ fin, ∀ n < bs.length,
  ∃ x e, p.runE fin (bs.take n) = .ok (x, some e) [] ∧ (e = fin ∨ (fin = .eof ∧ e = .unexpectedEOF))

/-- Over a reader that returns short reads and errors at any point: a nil error is only returned with the value that is on the stream. -/
def Dec.ReportsFaults {α : Type} (p : Dec (α × Option Err)) : Prop := ∀ (r r' : Reader) a, p.runR r = .ok (a, none) r' → ∃ c, r.data = c ++ r'.data ∧ p.Reads c a

/-- Over a writer whose calls fail at any point: if one has failed, the error of the first that did is returned, and what has been written is the beginning of what is written if
none fails. -/
def Enc.ReportsFaults (p : Enc (Option Err)) : Prop := ∀ w e out, p.runW w = .ok e out true →
  ∃ i n e', (∀ j, j < i → w j = .ok) ∧ w i = .fail n e' ∧ e = some e' ∧ ∀ x b, p.run = .ok x b → out <+: b

/-- The same over a writer that goes on failing once it has failed -/
def Enc.ReportsLasting (p : Enc (Option Err)) : Prop := ∀ w, (∀ i n e, w i = .fail n e → ∃ n' e', w (i + 1) = .fail n' e') → ∀ e out, p.runW w = .ok e out true → ∃ e', e = some e'

end Verif
