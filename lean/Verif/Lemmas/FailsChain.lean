import Verif.Lemmas.Fails
/-! How the methods of package chain fail. -/
namespace Verif
open Dec

/-- After n bytes that are anything. -/
theorem Dec.Faults.after {α β : Type} {p : Dec (β × Option Err)} {R : β → Bytes → Prop} {F : Err → Bytes → Failure → Prop} {f : β × Option Err → Dec (α × Option Err)} {K : Err → Bytes → Failure → Prop}
    (n : Nat) (hp : p.Faults F) (hR : p.Exactly R) (hn : ∀ w, (∃ v, R v w) ↔ w.length = n) (hf : ∀ b, (f (b, none)).Faults K) (he : ∀ b e, ∃ a, f (b, some e) = pure (a, some e)) :
    (p >>= f).Faults fun fin s x => F fin s x ∨ After n K fin s x := by
  refine (hp.bind hR.yields hf he).iff fun fin s x => or_congr Iff.rfl ⟨?_, ?_⟩
  · rintro ⟨v, m, ⟨w, h1, rfl⟩, h⟩
    exact ⟨w, m, (hn w).1 ⟨v, h1⟩, rfl, h⟩
  · rintro ⟨w, m, h1, rfl, h⟩
    obtain ⟨v, hv⟩ := (hn w).2 h1
    exact ⟨v, m, ⟨w, hv, rfl⟩, h⟩

theorem form8 (w : Bytes) : (∃ v : UInt64, LeForm 8 v.toNat w) ↔ w.length = 8 := (leForm_some rfl w).symm
theorem form1 (w : Bytes) : (∃ v : UInt8, w = [v]) ↔ w.length = 1 := by
  constructor
  · rintro ⟨v, rfl⟩; rfl
  · intro h
    match w, h with
    | [a], _ => exact ⟨a, rfl⟩

theorem after_after (n m : Nat) (F : Err → Bytes → Failure → Prop) (fin : Err) (s : Bytes) (x : Failure) : After n (After m F) fin s x ↔ After (n + m) F fin s x := by
  constructor
  · rintro ⟨a, _, h1, rfl, b, c, h2, rfl, h3⟩
    exact ⟨a ++ b, c, by simp [h1, h2], by simp, h3⟩
  · rintro ⟨h, c, h1, rfl, h3⟩
    exact ⟨h.take n, h.drop n ++ c, by simp; omega, by rw [← List.append_assoc, List.take_append_drop], h.drop n, c, by simp; omega, rfl, h3⟩

theorem after_or (n : Nat) (F K : Err → Bytes → Failure → Prop) (fin : Err) (s : Bytes) (x : Failure) : After n (fun fin s x => F fin s x ∨ K fin s x) fin s x ↔ After n F fin s x ∨ After n K fin s x := by
  constructor
  · rintro ⟨a, b, h1, h2, h3 | h3⟩
    · exact .inl ⟨a, b, h1, h2, h3⟩
    · exact .inr ⟨a, b, h1, h2, h3⟩
  · rintro (⟨a, b, h1, h2, h3⟩ | ⟨a, b, h1, h2, h3⟩)
    · exact ⟨a, b, h1, h2, .inl h3⟩
    · exact ⟨a, b, h1, h2, .inr h3⟩

theorem afterLeb_or (F K : Nat → Err → Bytes → Failure → Prop) (fin : Err) (s : Bytes) (x : Failure) : AfterLeb (fun n fin s x => F n fin s x ∨ K n fin s x) fin s x ↔ AfterLeb F fin s x ∨ AfterLeb K fin s x := by
  constructor
  · rintro ⟨n, a, b, h1, h2, h3 | h3⟩
    · exact .inl ⟨n, a, b, h1, h2, h3⟩
    · exact .inr ⟨n, a, b, h1, h2, h3⟩
  · rintro (⟨n, a, b, h1, h2, h3⟩ | ⟨n, a, b, h1, h2, h3⟩)
    · exact ⟨n, a, b, h1, h2, .inl h3⟩
    · exact ⟨n, a, b, h1, h2, .inr h3⟩

theorem name_faults (old : UInt64) : (Name.unmarshal old).Faults (Torn 8) := by
  unfold Name.unmarshal
  exact readUint64_faults.map (fun _ => ⟨_, rfl⟩) fun _ _ => ⟨_, rfl⟩
theorem symbol_faults (old : UInt64) : (Symbol.unmarshal old).Faults (Torn 8) := by
  unfold Symbol.unmarshal
  exact readUint64_faults.map (fun _ => ⟨_, rfl⟩) fun _ _ => ⟨_, rfl⟩
theorem uint64_faults (old : UInt64) : (Uint64.unmarshal old).Faults (Torn 8) := by
  unfold Uint64.unmarshal
  exact readUint64_faults.map (fun _ => ⟨_, rfl⟩) fun _ _ => ⟨_, rfl⟩
theorem timePoint_faults (old : Int64) : (TimePoint.unmarshal old).Faults (Torn 8) := by
  unfold TimePoint.unmarshal
  exact readInt64_faults.map (fun _ => ⟨_, rfl⟩) fun _ _ => ⟨_, rfl⟩
theorem blockNum_faults (old : UInt32) : (BlockNum.unmarshal old).Faults (Torn 4) := by
  unfold BlockNum.unmarshal
  exact readUint32_faults.map (fun _ => ⟨_, rfl⟩) fun _ _ => ⟨_, rfl⟩
theorem timePointSec_faults (old : UInt32) : (TimePointSec.unmarshal old).Faults (Torn 4) := by
  unfold TimePointSec.unmarshal
  exact readUint32_faults.map (fun _ => ⟨_, rfl⟩) fun _ _ => ⟨_, rfl⟩
theorem checksum_faults (n : Nat) (old : Bytes) (hn : n ≤ maxAlloc) : (Checksum.unmarshal n old).Faults (Torn n) := by
  unfold Checksum.unmarshal
  exact faults_fixed n hn (fun _ _ => ⟨_, rfl⟩) fun _ _ _ => ⟨_, rfl⟩
theorem float128_faults (old : Bytes) : (Float128.unmarshal old).Faults (Torn 16) := by
  unfold Float128.unmarshal
  exact faults_fixed 16 (by decide) (fun _ _ => ⟨_, rfl⟩) fun _ _ _ => ⟨_, rfl⟩
theorem u128_faults (old : U128) : (U128.unmarshal old).Faults fun fin s x => Torn 8 fin s x ∨ After 8 (Torn 8) fin s x := by
  unfold U128.unmarshal
  exact readUint64_faults.after 8 readUint64_exactly form8 (fun _ => readUint64_faults.map (fun _ => ⟨_, rfl⟩) fun _ _ => ⟨_, rfl⟩) fun _ _ => ⟨_, rfl⟩

theorem formI8 (w : Bytes) : (∃ v : Int64, LeFormI 8 v.toInt w) ↔ w.length = 8 := by
  constructor
  · rintro ⟨v, h⟩
    exact h.1
  · intro h
    obtain ⟨v, hv⟩ := (leForm_some rfl w).1 h
    have := (readUint64_exactly .eof w v []).2 ⟨w, by simp, hv⟩
    have h2 : readInt64.runE .eof w = .ok (v.toInt64, none) [] := by
      unfold readInt64
      rw [Dec.runE_bind, this]
      rfl
    obtain ⟨w', h3, h4⟩ := (readInt64_exactly .eof w _ []).1 h2
    simp at h3
    subst h3
    exact ⟨_, h4⟩

theorem asset_faults (old : Asset) : (Asset.unmarshal old).Faults fun fin s x => Torn 8 fin s x ∨ After 8 (Torn 8) fin s x := by
  unfold Asset.unmarshal
  exact readInt64_faults.after 8 readInt64_exactly formI8 (fun _ => (symbol_faults 0).map (fun _ => ⟨_, rfl⟩) fun _ _ => ⟨_, rfl⟩) fun _ _ => ⟨_, rfl⟩

theorem asset_form (w : Bytes) : (∃ v, AssetLayout v w) ↔ w.length = 16 := by
  constructor
  · rintro ⟨v, a, b, h1, h2, rfl⟩
    have h1 := (formI8 _).1 ⟨_, h1⟩
    have h2 := (form8 _).1 ⟨_, h2⟩
    simp [h1, h2]
  · intro h
    obtain ⟨a, ha⟩ := (formI8 (w.take 8)).2 (by simp; omega)
    obtain ⟨b, hb⟩ := (form8 (w.drop 8)).2 (by simp; omega)
    exact ⟨⟨a, b⟩, _, _, ha, hb, (List.take_append_drop _ _).symm⟩

theorem extendedAsset_faults (old : ExtendedAsset) : (ExtendedAsset.unmarshal old).Faults fun fin s x => Torn 8 fin s x ∨ After 8 (Torn 8) fin s x ∨ After 16 (Torn 8) fin s x := by
  apply Faults.iff
  case h =>
    unfold ExtendedAsset.unmarshal
    exact (asset_faults _).after 16 (asset_exactly _) asset_form (fun _ => (name_faults _).map (fun _ => ⟨_, rfl⟩) fun _ _ => ⟨_, rfl⟩) fun _ _ => ⟨_, rfl⟩
  exact fun _ _ _ => or_assoc

/-! ### Actions and transactions -/

theorem after8 {K : Err → Bytes → Failure → Prop} (fin : Err) (s : Bytes) (x : Failure) : (∃ (b : UInt64) (w s' : Bytes), LeForm 8 b.toNat w ∧ s = w ++ s' ∧ K fin s' x) ↔ After 8 K fin s x := by
  constructor
  · rintro ⟨b, w, s', h1, h2, h3⟩
    exact ⟨w, s', (form8 w).1 ⟨b, h1⟩, h2, h3⟩
  · rintro ⟨w, s', h1, h2, h3⟩
    obtain ⟨b, hb⟩ := (form8 w).2 h1
    exact ⟨b, w, s', hb, h2, h3⟩

theorem perm_faults (old : PermissionLevel) : (PermissionLevel.unmarshal old).Faults PermFault := by
  apply Faults.iff
  case h =>
    unfold PermissionLevel.unmarshal
    refine faults_name (K := fun _ => Torn 8) (fun v => ?_) fun e fin x => ?_
    · exact (name_faults _).map (fun _ => ⟨_, rfl⟩) fun _ _ => ⟨_, rfl⟩
    · rw [Dec.runE_bind, name_empty]
      exact Out.faults_err _ x
  intro fin s x
  exact or_congr Iff.rfl (after8 fin s x)

theorem authLoop_faults (k : Nat) (auth : List PermissionLevel) : (authLoop k auth).Faults fun fin => FaultAmong (Splits PermLayout) (PermFault fin) k := by
  induction k generalizing auth with
  | zero => exact (faults_pure _).iff fun fin s x => ⟨fun h => h.elim, fun ⟨_, _, h, _⟩ => by simp at h⟩
  | succ k ih =>
    apply Faults.iff
    case h =>
      unfold authLoop
      exact (perm_faults .zero).bind (perm_exactly _).yields (fun b => ih _) fun _ _ => ⟨_, rfl⟩
    intro fin s x
    constructor
    · rintro (h | ⟨y, m, h1, ys, m', h2, h3, h4⟩)
      · exact ⟨[], s, by simp, .nil, h⟩
      · exact ⟨y :: ys, m', by simpa using h2, .cons h1 h3, h4⟩
    · rintro ⟨ys, m, h1, h2, h3⟩
      cases h2 with
      | nil => exact .inl h3
      | cons h4 h5 => exact .inr ⟨_, _, h4, _, m, by simpa using h1, h5, h3⟩

theorem action_faults (old : Action) : (Action.unmarshal old).Faults ActionFault := by
  have key : ∀ (ac n : UInt64), (readVaruint >>= fun x => match x with
      | (l, err) => match err with
        | some e => pure ((⟨ac, n, old.authorization, old.data⟩ : Action), some e)
        | none => authLoop (goInt l).toNat old.authorization >>= fun x => match x with
          | (auth, err) => match err with
            | some e => pure ((⟨ac, n, auth, old.data⟩ : Action), some e)
            | none => BytesT.unmarshal old.data >>= fun x => match x with
              | (data, err) => pure ((⟨ac, n, auth, data⟩ : Action), err)).Faults fun fin s x =>
      FaultLoop (Splits PermLayout) (PermFault fin) fin s x ∨ ∃ n xs lb au s'', AnyCount lb n ∧ xs.length = n ∧ Each PermLayout xs au ∧ s = lb ++ au ++ s'' ∧ SizedFault fin s'' x := by
    intro ac n
    apply Faults.iff
    case h =>
      exact readVaruint_faults.bind varuint_yields (fun l => (authLoop_faults _ _).bind (authLoop_exactly _ _).yields (fun auth => (bytesT_faults _).map (fun _ => ⟨_, rfl⟩) fun _ _ => ⟨_, rfl⟩) fun _ _ => ⟨_, rfl⟩) fun _ _ => ⟨_, rfl⟩
    intro fin s x
    constructor
    · rintro (h | ⟨l, _, ⟨lb, h1, rfl⟩, h2 | ⟨_, m', ⟨au, ⟨xs, h2, h3, rfl⟩, rfl⟩, h4⟩⟩)
      · exact .inl (.inl h)
      · exact .inl (.inr ⟨_, lb, _, goInt_anyCount l lb _ h1 rfl, rfl, h2⟩)
      · exact .inr ⟨_, xs, lb, au, m', goInt_anyCount l lb _ h1 rfl, h2, h3, by simp, h4⟩
    · rintro ((h | ⟨n, lb, m, h1, rfl, h2⟩) | ⟨n, xs, lb, au, m, h1, h2, h3, rfl, h4⟩)
      · exact .inl h
      · obtain ⟨l, h6, h7⟩ := anyCount_goInt _ _ h1
        exact .inr ⟨l, m, ⟨lb, h6, rfl⟩, .inl (h7 ▸ h2)⟩
      · obtain ⟨l, h6, h7⟩ := anyCount_goInt _ _ h1
        exact .inr ⟨l, au ++ m, ⟨lb, h6, by simp⟩, .inr ⟨_, m, ⟨au, ⟨xs, h7 ▸ h2, h3, rfl⟩, rfl⟩, h4⟩⟩
  apply Faults.iff
  case h =>
    unfold Action.unmarshal
    refine faults_name (fun ac => faults_name (fun n => key ac n) fun e fin x => ?_) fun e fin x => ?_
    · rw [Dec.runE_bind, varuint_empty]
      exact Out.faults_err _ x
    · rw [Dec.runE_bind, name_empty, Out.bind_ok, Dec.runE_bind, varuint_empty]
      exact Out.faults_err _ x
  intro fin s x
  constructor
  · rintro (⟨h1, h2⟩ | ⟨b, w, s', h1, rfl, ⟨h2, h3⟩ | ⟨b', w', s'', h2, rfl, h3⟩⟩)
    · exact .inl ⟨by omega, h2⟩
    · have := leForm_length h1
      exact .inl ⟨by simp; omega, h3⟩
    · exact .inr ⟨w ++ w', s'', by simp [leForm_length h1, leForm_length h2], by simp, h3⟩
  · rintro (⟨h1, h2⟩ | ⟨h, s', h1, rfl, h2⟩)
    · by_cases h8 : s.length < 8
      · exact .inl ⟨h8, h2⟩
      · obtain ⟨b, hb⟩ := (form8 (s.take 8)).2 (by simp; omega)
        exact .inr ⟨b, _, s.drop 8, hb, (List.take_append_drop _ _).symm, .inl ⟨by simp; omega, h2⟩⟩
    · obtain ⟨b, hb⟩ := (form8 (h.take 8)).2 (by simp; omega)
      obtain ⟨b', hb'⟩ := (form8 (h.drop 8)).2 (by simp; omega)
      exact .inr ⟨b, _, h.drop 8 ++ s', hb, by rw [← List.append_assoc, List.take_append_drop], .inr ⟨b', _, s', hb', rfl, h2⟩⟩

theorem extension_faults (old : TxExtension) : (TxExtension.unmarshal old).Faults ExtensionFault := by
  unfold TxExtension.unmarshal
  exact readUint16_faults.after 2 readUint16_exactly (fun w => (form2 w).symm) (fun t => (bytesT_faults _).map (fun _ => ⟨_, rfl⟩) fun _ _ => ⟨_, rfl⟩) fun _ _ => ⟨_, rfl⟩

/-- After a number. -/
theorem Dec.faults_leb {α : Type} {g : UInt64 × Option Err → Dec (α × Option Err)} {K : Err → Bytes → Failure → Prop} (hg : ∀ l, (g (l, none)).Faults K) (he : ∀ l e, ∃ a, g (l, some e) = pure (a, some e)) :
    (readVaruint >>= g).Faults fun fin s x => LebFault fin s x ∨ AfterLeb (fun _ => K) fin s x := by
  refine (readVaruint_faults.bind varuint_yields hg he).iff fun fin s x => or_congr Iff.rfl ⟨?_, ?_⟩
  · rintro ⟨l, m, ⟨lb, h1, rfl⟩, h⟩
    exact ⟨l.toNat, lb, m, h1, rfl, h⟩
  · rintro ⟨n, lb, m, h1, rfl, h⟩
    obtain ⟨l, rfl, h5⟩ := anyLeb_u64 h1
    exact ⟨l, m, ⟨lb, h5, rfl⟩, h⟩

theorem header_faults (old : TxHeader) : (TxHeader.unmarshal old).Faults HeaderFault := by
  apply Faults.iff
  case h =>
    unfold TxHeader.unmarshal
    exact (timePointSec_faults _).after 4 (timePointSec_exactly _) (fun w => (form4 w).symm) (fun e => readUint16_faults.after 2 readUint16_exactly (fun w => (form2 w).symm) (fun n =>
      readUint32_faults.after 4 readUint32_exactly (fun w => (form4 w).symm) (fun p => faults_leb (fun mw => readUint8_faults.after 1 readUint8_exactly form1 (fun c =>
      readVaruint_faults.map (fun _ => ⟨_, rfl⟩) fun _ _ => ⟨_, rfl⟩) fun _ _ => ⟨_, rfl⟩) fun _ _ => ⟨_, rfl⟩) fun _ _ => ⟨_, rfl⟩) fun _ _ => ⟨_, rfl⟩) fun _ _ => ⟨_, rfl⟩
  intro fin s x
  simp only [after_or, after_after, afterLeb_or]
  exact Iff.rfl

theorem transaction_faults (old : Transaction) : (Transaction.unmarshal old).Faults TransactionFault := by
  have ha : (Action.unmarshal .zero).Faults ActionFault := action_faults .zero
  have hx : (TxExtension.unmarshal .zero).Faults ExtensionFault := extension_faults .zero
  apply Faults.iff
  case h =>
    unfold Transaction.unmarshal
    exact (header_faults _).bind (header_exactly _).yields (fun h => (decSlice_faults _ _ _ (action_exactly .zero rfl).yields ha).bind (decSlice_exactly _ _ _ (action_exactly .zero rfl)).yields (fun cfa =>
      (decSlice_faults _ _ _ (action_exactly .zero rfl).yields ha).bind (decSlice_exactly _ _ _ (action_exactly .zero rfl)).yields (fun acts => (decSlice_faults _ _ _ (extension_exactly .zero).yields hx).map (fun _ => ⟨_, rfl⟩) fun _ _ => ⟨_, rfl⟩)
      fun _ _ => ⟨_, rfl⟩) fun _ _ => ⟨_, rfl⟩) fun _ _ => ⟨_, rfl⟩
  intro fin s x
  constructor
  · rintro (h | ⟨h, s1, ⟨hb, h1, rfl⟩, (h2 | ⟨xs, s2, ⟨xb, h2, rfl⟩, (h3 | ⟨ys, s3, ⟨yb, h3, rfl⟩, h4⟩)⟩)⟩)
    · exact .inl h
    · exact .inr ⟨h, hb, s1, h1, rfl, .inl h2⟩
    · exact .inr ⟨h, hb, _, h1, rfl, .inr ⟨xs, xb, s2, h2, rfl, .inl h3⟩⟩
    · exact .inr ⟨h, hb, _, h1, rfl, .inr ⟨xs, xb, _, h2, rfl, .inr ⟨ys, yb, s3, h3, rfl, h4⟩⟩⟩
  · rintro (h | ⟨h, hb, s1, h1, rfl, (h2 | ⟨xs, xb, s2, h2, rfl, (h3 | ⟨ys, yb, s3, h3, rfl, h4⟩)⟩)⟩)
    · exact .inl h
    · exact .inr ⟨h, s1, ⟨hb, h1, rfl⟩, .inl h2⟩
    · exact .inr ⟨h, _, ⟨hb, h1, rfl⟩, .inr ⟨xs, s2, ⟨xb, h2, rfl⟩, .inl h3⟩⟩
    · exact .inr ⟨h, _, ⟨hb, h1, rfl⟩, .inr ⟨xs, _, ⟨xb, h2, rfl⟩, .inr ⟨ys, s3, ⟨yb, h3, rfl⟩, h4⟩⟩⟩

/-! ### Keys and signatures -/

theorem putLen_faults {α : Type} {l : UInt64} {f : Bytes → Dec (α × Option Err)} {K : Err → Bytes → Failure → Prop} (hf : ∀ m, (f m).Faults K) :
    (putLen l f).Faults fun fin s x => 2 ^ 35 ≤ l.toNat ∧ x = .panic ∨ l.toNat < 2 ^ 35 ∧ K fin s x := by
  unfold putLen
  cases hp : putUvarint 5 l with
  | none =>
    have h : 2 ^ 35 ≤ l.toNat := by
      by_contra h
      have := (putUvarint_isSome 5 l).2 ⟨by omega, by decide⟩
      rw [hp] at this
      cases this
    exact (faults_panic _).iff fun fin s x => ⟨fun h1 => .inl ⟨h, h1⟩, fun h1 => h1.elim (·.2) fun h2 => absurd h2.1 (by omega)⟩
  | some m =>
    have h1 : l.toNat < 2 ^ 35 := by
      have := ((putUvarint_isSome 5 l).1 (by rw [hp]; rfl)).1
      omega
    exact (hf m).iff fun fin s x => ⟨fun h => .inr ⟨h1, h⟩, fun h => h.elim (fun h2 => absurd h2.1 (by omega)) (·.2)⟩

theorem u8_yields : readByte.Yields fun _ => Splits fun v w => w = [v] := readByte_exactly.yields

/-- A key type, and what the rest does with it. -/
theorem faults_type {α : Type} {g : UInt8 × Option Err → Dec (α × Option Err)} {A B C : Err → Bytes → Failure → Prop}
    (h0 : ∀ t, t = 0 ∨ t = 1 → (g (t, none)).Faults A) (h2 : (g (2, none)).Faults B) (h3 : ∀ t, 2 < t → (g (t, none)).Faults C) (he : ∀ t e, ∃ a, g (t, some e) = pure (a, some e)) :
    (readByte >>= g).Faults fun fin s x => Torn 1 fin s x ∨ ∃ t s', s = t :: s' ∧ ((t = 0 ∨ t = 1) ∧ A fin s' x ∨ 2 < t ∧ C fin s' x ∨ t = 2 ∧ B fin s' x) := by
  have key : ∀ t, (g (t, none)).Faults fun fin s' x => (t = 0 ∨ t = 1) ∧ A fin s' x ∨ 2 < t ∧ C fin s' x ∨ t = 2 ∧ B fin s' x := by
    intro t
    by_cases h : t = 0 ∨ t = 1
    · refine (h0 t h).iff fun fin s x => ⟨fun h1 => .inl ⟨h, h1⟩, ?_⟩
      rintro (⟨_, h1⟩ | ⟨h1, _⟩ | ⟨rfl, _⟩)
      · exact h1
      · rcases h with rfl | rfl <;> exact absurd h1 (by decide)
      · exact absurd h (by decide)
    by_cases ht : t = 2
    · subst ht
      refine h2.iff fun fin s x => ⟨fun h1 => .inr (.inr ⟨rfl, h1⟩), ?_⟩
      rintro (⟨h1, _⟩ | ⟨h1, _⟩ | ⟨_, h1⟩)
      · exact absurd h1 h
      · exact absurd h1 (by decide)
      · exact h1
    · have hl : 2 < t := by
        have h4 : t.toNat ≠ 0 := fun h5 => h (.inl (UInt8.toNat_inj.1 h5))
        have h5 : t.toNat ≠ 1 := fun h5 => h (.inr (UInt8.toNat_inj.1 h5))
        have h6 : t.toNat ≠ 2 := fun h5 => ht (UInt8.toNat_inj.1 h5)
        show (2 : UInt8).toNat < t.toNat
        show 2 < t.toNat
        omega
      refine (h3 t hl).iff fun fin s x => ⟨fun h1 => .inr (.inl ⟨hl, h1⟩), ?_⟩
      rintro (⟨h1, _⟩ | ⟨_, h1⟩ | ⟨h1, _⟩)
      · exact absurd h1 h
      · exact h1
      · exact absurd h1 ht
  refine (readByte_faults.bind u8_yields key he).iff fun fin s x => or_congr Iff.rfl ⟨?_, ?_⟩
  · rintro ⟨t, m, ⟨w, rfl, rfl⟩, h⟩
    exact ⟨t, m, rfl, h⟩
  · rintro ⟨t, m, rfl, h⟩
    exact ⟨t, m, ⟨_, rfl, rfl⟩, h⟩

theorem key_faults (old : PubKey) : (PubKey.unmarshal old).Faults KeyFault := by
  apply Faults.iff
  case h =>
    unfold PubKey.unmarshal
    refine faults_type (A := Torn 33) (B := fun fin s x => Torn 34 fin s x ∨ ∃ p s', p.length = 34 ∧ s = p ++ s' ∧ (SizedFault fin s' x ∨ ∃ (l : UInt64) (w b s'' : Bytes), l.toNat = b.length ∧ Sized w b ∧ s' = w ++ s'' ∧ (2 ^ 35 ≤ l.toNat ∧ x = .panic ∨ l.toNat < 2 ^ 35 ∧ False)))
      (C := fun _ _ x => x = .err (.msg "unknown key type")) (fun t ht => ?_) ?_ (fun t ht => ?_) fun t e => ⟨_, rfl⟩
    · have h : (t == 0 || t == 1) = true := by rcases ht with rfl | rfl <;> rfl
      show Faults (if (t == 0 || t == 1) = true then _ else _) _
      rw [if_pos h]
      exact faults_fixed 33 (by decide) (fun _ _ => ⟨_, rfl⟩) fun _ _ _ => ⟨_, rfl⟩
    · exact faults_bytes 34 (by decide) (fun k p => faults_sized (fun l => rfl) (fun l e => ⟨_, rfl⟩) (fun l k b => putLen_faults fun m => faults_pure _) fun l k b e => ⟨_, rfl⟩) fun k b e => ⟨_, rfl⟩
    · have h1 : (t == 0 || t == 1) = false := by
        rw [Bool.or_eq_false_iff, beq_eq_false_iff_ne, beq_eq_false_iff_ne]
        constructor <;> rintro rfl <;> exact absurd ht (by decide)
      have h2 : (t == 2) = false := by
        rw [beq_eq_false_iff_ne]
        rintro rfl
        exact absurd ht (by decide)
      show Faults (if (t == 0 || t == 1) = true then _ else if (t == 2) = true then _ else _) _
      rw [h1, h2]
      exact faults_fail _ _
  intro fin s x
  refine or_congr Iff.rfl (exists_congr fun t => exists_congr fun s' => and_congr Iff.rfl (or_congr Iff.rfl (or_congr Iff.rfl (and_congr Iff.rfl (or_congr Iff.rfl ?_)))))
  constructor
  · rintro ⟨p, m, h1, rfl, h2 | ⟨l, w, b, r, h2, ⟨lb, h3, h4, rfl⟩, rfl, ⟨h6, rfl⟩ | ⟨_, h⟩⟩⟩
    · exact .inl ⟨p, m, h1, rfl, h2⟩
    · exact .inr ⟨rfl, p, lb, b, r, h1, h3, h4, h2 ▸ h6, by simp⟩
    · exact h.elim
  · rintro (⟨p, m, h1, rfl, h2⟩ | ⟨rfl, p, lb, b, r, h1, h3, h4, h5, rfl⟩)
    · exact ⟨p, m, h1, rfl, .inl h2⟩
    · obtain ⟨l, h6, h7⟩ := anyLeb_u64 h3
      exact ⟨p, lb ++ b ++ r, h1, by simp, .inr ⟨l, lb ++ b, b, r, h6, ⟨lb, h3, h4, rfl⟩, rfl, .inl ⟨h6.symm ▸ h5, rfl⟩⟩⟩

theorem sig_faults (old : Sig) : (Sig.unmarshal old).Faults SigFault := by
  apply Faults.iff
  case h =>
    unfold Sig.unmarshal
    refine faults_type (A := Torn 65) (B := fun fin s x => Torn 65 fin s x ∨ ∃ p s', p.length = 65 ∧ s = p ++ s' ∧ (SizedFault fin s' x ∨ ∃ (l : UInt64) (w b s'' : Bytes), l.toNat = b.length ∧ Sized w b ∧ s' = w ++ s'' ∧
        (SizedFault fin s'' x ∨ ∃ (l' : UInt64) (w' b' s''' : Bytes), l'.toNat = b'.length ∧ Sized w' b' ∧ s'' = w' ++ s''' ∧ (2 ^ 35 ≤ l.toNat ∧ x = .panic ∨ l.toNat < 2 ^ 35 ∧ (2 ^ 35 ≤ l'.toNat ∧ x = .panic ∨ l'.toNat < 2 ^ 35 ∧ False)))))
      (C := fun _ _ x => x = .err (.msg "unknown key type")) (fun t ht => ?_) ?_ (fun t ht => ?_) fun t e => ⟨_, rfl⟩
    · have h : (t == 0 || t == 1) = true := by rcases ht with rfl | rfl <;> rfl
      show Faults (if (t == 0 || t == 1) = true then _ else _) _
      rw [if_pos h]
      exact faults_fixed 65 (by decide) (fun _ _ => ⟨_, rfl⟩) fun _ _ _ => ⟨_, rfl⟩
    · exact faults_bytes 65 (by decide) (fun k p => faults_sized (fun l => rfl) (fun l e => ⟨_, rfl⟩) (fun l k b => faults_sized (fun l => rfl) (fun l e => ⟨_, rfl⟩)
        (fun l' k' b' => putLen_faults fun m => putLen_faults fun m => faults_pure _) fun l k b e => ⟨_, rfl⟩) fun l k b e => ⟨_, rfl⟩) fun k b e => ⟨_, rfl⟩
    · have h1 : (t == 0 || t == 1) = false := by
        rw [Bool.or_eq_false_iff, beq_eq_false_iff_ne, beq_eq_false_iff_ne]
        constructor <;> rintro rfl <;> exact absurd ht (by decide)
      have h2 : (t == 2) = false := by
        rw [beq_eq_false_iff_ne]
        rintro rfl
        exact absurd ht (by decide)
      show Faults (if (t == 0 || t == 1) = true then _ else if (t == 2) = true then _ else _) _
      rw [h1, h2]
      exact faults_fail _ _
  intro fin s x
  refine or_congr Iff.rfl (exists_congr fun t => exists_congr fun s' => and_congr Iff.rfl (or_congr Iff.rfl (or_congr Iff.rfl (and_congr Iff.rfl (or_congr Iff.rfl ?_)))))
  constructor
  · rintro ⟨p, m, h1, rfl, h2 | ⟨l, w, b, r, h2, h3, rfl, h4 | ⟨l', w', b', r', h4, h5, rfl, h6⟩⟩⟩
    · exact .inl ⟨p, m, h1, rfl, h2⟩
    · exact .inr ⟨p, w, b, r, h1, h3, by simp, .inl h4⟩
    · refine .inr ⟨p, w, b, w' ++ r', h1, h3, by simp, .inr ?_⟩
      rcases h6 with ⟨h6, rfl⟩ | ⟨_, ⟨h6, rfl⟩ | ⟨_, h⟩⟩
      · exact ⟨rfl, w', b', r', h5, .inl (h2 ▸ h6), rfl⟩
      · exact ⟨rfl, w', b', r', h5, .inr (h4 ▸ h6), rfl⟩
      · exact h.elim
  · rintro (⟨p, m, h1, rfl, h2⟩ | ⟨p, w, b, r, h1, ⟨lb, h3, h4, rfl⟩, rfl, h5 | ⟨rfl, w', b', r', ⟨lb', h5, h6, rfl⟩, h7, rfl⟩⟩)
    · exact ⟨p, m, h1, rfl, .inl h2⟩
    · obtain ⟨l, h6, h7⟩ := anyLeb_u64 h3
      exact ⟨p, lb ++ b ++ r, h1, by simp, .inr ⟨l, lb ++ b, b, r, h6, ⟨lb, h3, h4, rfl⟩, rfl, .inl h5⟩⟩
    · obtain ⟨l, e1, _⟩ := anyLeb_u64 h3
      obtain ⟨l', e2, _⟩ := anyLeb_u64 h5
      refine ⟨p, lb ++ b ++ (lb' ++ b' ++ r'), h1, by simp only [List.append_assoc], .inr ⟨l, lb ++ b, b, lb' ++ b' ++ r', e1, ⟨lb, h3, h4, rfl⟩, rfl, .inr ⟨l', lb' ++ b', b', r', e2, ⟨lb', h5, h6, rfl⟩, rfl, ?_⟩⟩⟩
      by_cases hl : 2 ^ 35 ≤ b.length
      · exact .inl ⟨e1.symm ▸ hl, rfl⟩
      · exact .inr ⟨by omega, .inl ⟨e2.symm ▸ h7.resolve_left hl, rfl⟩⟩

theorem chain_faults (c : ChainTy) : (c.unmarshal c.zero).Faults c.Failure := by
  cases c
  case action => exact action_faults _
  case blob => exact unmarshalBytes_faults _
  case bytes => exact unmarshalBytes_faults _
  case permissionLevel => exact perm_faults _
  case transaction => exact transaction_faults _
  case transactionExtension => exact extension_faults _
  case transactionHeader => exact header_faults _
  case publicKey => exact key_faults _
  case signature => exact sig_faults _
  case asset => exact asset_faults _
  case extendedAsset => exact extendedAsset_faults _
  case int128 => exact u128_faults _
  case uint128 => exact u128_faults _
  case float128 => exact float128_faults _
  case checksum160 => exact checksum_faults 20 _ (by decide)
  case checksum256 => exact checksum_faults 32 _ (by decide)
  case checksum512 => exact checksum_faults 64 _ (by decide)
  case name => exact name_faults _
  case symbol => exact symbol_faults _
  case symbolCode => exact readUint64_faults.map (fun _ => ⟨_, rfl⟩) fun _ _ => ⟨_, rfl⟩
  case uint64 => exact uint64_faults _
  case timePoint => exact timePoint_faults _
  case timePointSec => exact timePointSec_faults _
  case blockTimestamp => exact readUint32_faults.map (fun _ => ⟨_, rfl⟩) fun _ _ => ⟨_, rfl⟩
  case blockNum => exact blockNum_faults _

end Verif
