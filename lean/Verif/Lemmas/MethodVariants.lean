import Verif.Spec.MethodVariants
import Verif.Lemmas.Methods
/-! # Lemmas about DecodeVariant of types with methods -/
namespace Verif

theorem decodeVariantM_nil (M : Program) (t : MTy) (old : t.bare.Val) (fin : Err) : (decodeVariantM M t old).runE fin [] = .ok (old, some fin) [] := by
  unfold decodeVariantM
  rw [Dec.runE_bind, readByte_nil]
  rfl

theorem decodeVariantM_cons (M : Program) (t : MTy) (old : t.bare.Val) (fin : Err) (b : UInt8) (bs : Bytes) :
    (decodeVariantM M t old).runE fin (b :: bs) = (variantM M t b.toNat old).runE fin bs := by
  unfold decodeVariantM
  rw [Dec.runE_bind, readByte_cons]
  rfl

theorem variantM_own (M : Program) (i : Nat) (t : MTy) (n : Nat) (old : t.bare.Val) : variantM M (.own i t) n old =
    match (M i t).unmarshal with
    | some u => u old
    | none => variantM M t n old := rfl

theorem variantM_struct (M : Program) (fs : MFields) (n : Nat) (old : fs.bare.Val) : variantM M (.struct fs) n old =
    if n ≥ fs.bare.count then pure (old, some errVariantIndex)
    else (fs.bare.clear (some n) old).elim (.panic "reflect: call of reflect.Value.IsNil on a value that cannot be nil, or Set on an unexported field") (memberM M fs n) := by
  refine congrArg (ite _ _) ?_
  cases fs.bare.clear (some n) old <;> rfl

theorem decodeWith_variant (fs : Fields) (n : Nat) (old : fs.Val) : decodeWith chainDecoder (.struct fs) (.variant n) old =
    if n ≥ fs.count then pure (old, some errVariantIndex)
    else (fs.clear (some n) old).elim (.panic "reflect: call of reflect.Value.IsNil on a value that cannot be nil, or Set on an unexported field") (decodeMember chainDecoder fs n) := by
  refine congrArg (ite _ _) ?_
  cases fs.clear (some n) old <;> rfl

theorem count_variantFields : (ts : List MTy) → (variantFields ts).bare.count = ts.length
  | [] => rfl
  | _ :: ts => congrArg (· + 1) (count_variantFields ts)

theorem clear_variantFields_none : (ts : List MTy) → (v : (variantFields ts).bare.Val) → (variantFields ts).bare.clear none v = some (noneChosen ts)
  | [], _ => rfl
  | t :: ts, v => by
    obtain ⟨x, xs⟩ : Option t.bare.Val × (variantFields ts).bare.Val := v
    have := clear_variantFields_none ts xs
    change Fields.clear (.cons .exported .none (.ptr t.bare) (variantFields ts).bare) none ((x, xs) : Option t.bare.Val × (variantFields ts).bare.Val) = _
    cases x <;> simp [Fields.clear, Ty.isNil, this] <;> rfl

theorem clear_variantFields : (ts : List MTy) → (n : Nat) → (t : MTy) → ts[n]? = some t → (v : (variantFields ts).bare.Val) →
    ∃ x, (variantFields ts).bare.clear (some n) v = some x ∧ ∀ {M : Program} {w : t.bare.Val} {bs : Bytes}, (decodeM M t .decode t.bare.zero).Reads bs w →
      ∃ y, Chosen t w ts n y ∧ (memberM M (variantFields ts) n x).Reads bs y
  | [], _, _, h, _ => by simp at h
  | u :: ts, 0, t, h, v => by
    cases h
    obtain ⟨x, xs⟩ : Option u.bare.Val × (variantFields ts).bare.Val := v
    have := clear_variantFields_none ts xs
    refine ⟨((x, noneChosen ts) : Option u.bare.Val × (variantFields ts).bare.Val), ?_, fun hr => ⟨_, .here ts, ?_⟩⟩
    · change Fields.clear (.cons .exported .none (.ptr u.bare) (variantFields ts).bare) (some 0) ((x, xs) : Option u.bare.Val × (variantFields ts).bare.Val) = _
      simp [Fields.clear, this]
      rfl
    · have h1 : (fieldM _ (.ptr u) x).Reads _ (some _ : Option u.bare.Val) := hr.last rfl
      exact h1.last rfl
  | u :: ts, n + 1, t, h, v => by
    obtain ⟨x, xs⟩ : Option u.bare.Val × (variantFields ts).bare.Val := v
    obtain ⟨ys, h1, h2⟩ := clear_variantFields ts n t (by simpa using h) xs
    refine ⟨(((none : Option u.bare.Val), ys) : Option u.bare.Val × (variantFields ts).bare.Val), ?_, fun hr => ?_⟩
    · change Fields.clear (.cons .exported .none (.ptr u.bare) (variantFields ts).bare) (some (n + 1)) ((x, xs) : Option u.bare.Val × (variantFields ts).bare.Val) = _
      cases x <;> simp [Fields.clear, Ty.isNil, h1] <;> rfl
    · obtain ⟨zs, c, r⟩ := h2 hr
      exact ⟨_, .there u ts n zs c, r.last rfl⟩

variable {M : Program}

theorem fieldM_none (hM : ∀ i t, (M i t).unmarshal = none) : (t : MTy) → (old : t.bare.Val) → fieldM M t old = decodeWith chainDecoder t.bare .member old
  | .plain _, _ => rfl
  | .own _ t, old => fieldM_none hM t old
  | .ptr t, old => by
    rw [fieldM, decodeM_none hM t .decode (.inl rfl)]
    rfl
  | .slice _, _ => rfl
  | .array _ _, _ => rfl
  | .map _ _, _ => rfl
  | .struct _, _ => rfl

theorem memberM_none (hM : ∀ i t, (M i t).unmarshal = none) : (fs : MFields) → (n : Nat) → (old : fs.bare.Val) → memberM M fs n old = decodeMember chainDecoder fs.bare n old
  | .nil, _, _ => rfl
  | .cons _ t fs, 0, old => by
    obtain ⟨x, xs⟩ : t.bare.Val × fs.bare.Val := old
    show (fieldM M t x >>= fun p => pure (((p.1, xs) : t.bare.Val × fs.bare.Val), p.2)) = _
    rw [fieldM_none hM t x]
    refine congrArg (Dec.bind _) (funext fun p => ?_)
    obtain ⟨y, err⟩ := p
    cases err <;> rfl
  | .cons _ t fs, n + 1, old => by
    obtain ⟨x, xs⟩ : t.bare.Val × fs.bare.Val := old
    show (memberM M fs n xs >>= fun p => pure (((x, p.1) : t.bare.Val × fs.bare.Val), p.2)) = _
    rw [memberM_none hM fs n xs]
    rfl

theorem variantM_none (hM : ∀ i t, (M i t).unmarshal = none) : (t : MTy) → (n : Nat) → (old : t.bare.Val) → variantM M t n old = decodeWith chainDecoder t.bare (.variant n) old
  | .plain _, _, _ => rfl
  | .own i t, n, old => by
    refine (variantM_own M i t n old).trans ?_
    rw [hM]
    exact variantM_none hM t n old
  | .ptr t, n, old => by
    rw [variantM, variantM_none hM t n]
    rfl
  | .slice _, _, _ => rfl
  | .array _ _, _, _ => rfl
  | .map _ _, _, _ => rfl
  | .struct fs, n, old => by
    refine (variantM_struct M fs n old).trans ((decodeWith_variant fs.bare n old).trans ?_).symm
    rw [funext (memberM_none hM fs n)]

theorem variantCallers_run (i : Nat) (t : MTy) (old : t.bare.Val) (fin : Err) : (n : Nat) → (bs : Bytes) → bs.length < n → ∀ u, (variantCallers n i t).unmarshal = some u →
    (u old).runE fin bs = .ok (old, some fin) []
  | n + 1, [], _, u, hu => by
    cases hu
    exact decodeVariantM_nil _ (.own i t) old fin
  | n + 1, b :: bs, h, u, hu => by
    cases hu
    refine (decodeVariantM_cons _ (.own i t) old fin b bs).trans ?_
    obtain ⟨u, hu⟩ : ∃ u, (variantCallers n i t).unmarshal = some u := by cases n <;> exact ⟨_, rfl⟩
    refine (congrArg (fun d => Dec.runE fin d bs) ((variantM_own _ i t _ old).trans (by rw [hu]))).trans ?_
    exact variantCallers_run i t old fin n bs (by simpa using h) u hu

end Verif
