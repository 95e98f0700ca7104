import Verif.Spec.Overwrite
import Verif.Lemmas.Run
namespace Verif

theorem SameRun.refl {α : Type} (o : Out α) : SameRun (fun _ a b => a = b) o o := by
  cases o <;> simp [SameRun]

theorem SameRun.mono {α β : Type} {P Q : Bytes → α → β → Prop} {o : Out α} {o' : Out β} (h : SameRun P o o') (hpq : ∀ r a b, P r a b → Q r a b) : SameRun Q o o' := by
  cases o <;> cases o' <;> simp only [SameRun] at h ⊢ <;> first | exact h | exact ⟨h.1, hpq _ _ _ h.2⟩

theorem SameRun.bind {α β γ δ : Type} {P : Bytes → α → β → Prop} {Q : Bytes → γ → δ → Prop} {p : Dec α} {q : Dec β} {f : α → Dec γ} {g : β → Dec δ} {fin : Err} {bs : Bytes}
    (h : SameRun P (p.runE fin bs) (q.runE fin bs)) (hf : ∀ a b r, P r a b → SameRun Q ((f a).runE fin r) ((g b).runE fin r)) :
    SameRun Q ((p >>= f).runE fin bs) ((q >>= g).runE fin bs) := by
  rw [Dec.runE_bind, Dec.runE_bind]
  cases hp : p.runE fin bs <;> cases hq : q.runE fin bs <;> rw [hp, hq] at h <;> simp only [SameRun] at h
  · obtain ⟨rfl, h⟩ := h
    exact hf _ _ _ h
  · subst h; rfl
  · trivial

/-- the same first step -/
theorem SameRun.step {α γ δ : Type} {Q : Bytes → γ → δ → Prop} {p : Dec α} {f : α → Dec γ} {g : α → Dec δ} {fin : Err} {bs : Bytes}
    (hf : ∀ a r, SameRun Q ((f a).runE fin r) ((g a).runE fin r)) : SameRun Q ((p >>= f).runE fin bs) ((p >>= g).runE fin bs) :=
  SameRun.bind (SameRun.refl _) fun a b r h => by subst h; exact hf a r

theorem SameRun.pure {α β : Type} {P : Bytes → α → β → Prop} {a : α} {b : β} {fin : Err} {bs : Bytes} (h : P bs a b) :
    SameRun P ((Pure.pure a : Dec α).runE fin bs) ((Pure.pure b : Dec β).runE fin bs) := ⟨rfl, h⟩

end Verif
