import Verif.Lemmas.Takes
/-! Exact acceptance of UnmarshalABI of the types of pkg/chain. -/
namespace Verif
open Dec

theorem Dec.Exactly.bind' {α β : Type} {p : Dec (β × Option Err)} {R : β → Bytes → Prop} {f : β × Option Err → Dec (α × Option Err)} {S : β → α → Bytes → Prop} (hp : p.Exactly R)
    (he : ∀ b e, (f (b, some e)).Never) (hf : ∀ b, (f (b, none)).Exactly (S b)) : (p >>= f).Exactly fun a w => ∃ b w1 w2, R b w1 ∧ S b a w2 ∧ w = w1 ++ w2 := hp.bind hf he

theorem Dec.exactly_bytes' {α : Type} {n : Int} {f : Nat × Bytes × Option Err → Dec (α × Option Err)} {S : Bytes → α → Bytes → Prop}
    (he : ∀ k b e, (f (k, b, some e)).Never) (hf : ∀ b : Bytes, (b.length : Int) = n → (f (b.length, b, none)).Exactly (S b)) :
    (readBytes n >>= f).Exactly fun a w => ∃ b w2 : Bytes, (b.length : Int) = n ∧ b.length ≤ maxAlloc ∧ S b a w2 ∧ w = b ++ w2 := exactly_bytes hf he

/-- Read, stop on an error, go on with the value x. -/
macro "ebind " h:term " with " x:ident : tactic => `(tactic| (apply Dec.Exactly.bind' $h; (focus (intro _ _; exact never_fail _ _)); intro $x:ident))
/-- Read bytes. -/
macro "ebytes " x:ident h:ident : tactic => `(tactic| (apply Dec.exactly_bytes'; (focus (intro _ _ _; exact never_fail _ _)); intro $x:ident $h:ident))
/-- The last read: its value is mapped. -/
macro "emap " h:term : tactic => `(tactic| (apply Dec.Exactly.map $h; (focus (intro _; rfl)); (focus (intro _ _; exact ⟨_, _, rfl⟩))))

theorem varuint_empty (fin : Err) : readVaruint.runE fin [] = .ok (0, some fin) [] := by
  simp [readVaruint, readUvarint_nil]

theorem name_exactly (old : UInt64) : (Name.unmarshal old).Exactly fun v w => LeForm 8 v.toNat w := readUint64_exactly.same (fun _ => rfl) fun _ _ => ⟨_, _, rfl⟩
theorem symbol_exactly (old : UInt64) : (Symbol.unmarshal old).Exactly fun v w => LeForm 8 v.toNat w := readUint64_exactly.same (fun _ => rfl) fun _ _ => ⟨_, _, rfl⟩
theorem uint64_exactly (old : UInt64) : (Uint64.unmarshal old).Exactly fun v w => LeForm 8 v.toNat w := readUint64_exactly.same (fun _ => rfl) fun _ _ => ⟨_, _, rfl⟩
theorem blockNum_exactly (old : UInt32) : (BlockNum.unmarshal old).Exactly fun v w => LeForm 4 v.toNat w := readUint32_exactly.same (fun _ => rfl) fun _ _ => ⟨_, _, rfl⟩
theorem timePointSec_exactly (old : UInt32) : (TimePointSec.unmarshal old).Exactly fun v w => LeForm 4 v.toNat w := readUint32_exactly.same (fun _ => rfl) fun _ _ => ⟨_, _, rfl⟩
theorem timePoint_exactly (old : Int64) : (TimePoint.unmarshal old).Exactly fun v w => LeFormI 8 v.toInt w := readInt64_exactly.same (fun _ => rfl) fun _ _ => ⟨_, _, rfl⟩

theorem u128_exactly (old : U128) : (U128.unmarshal old).Exactly fun v w => LeForm 16 v.natVal w := by
  apply Exactly.iff
  case h =>
    unfold U128.unmarshal
    ebind readUint64_exactly with lo
    emap readUint64_exactly
  intro v w
  constructor
  · rintro ⟨lo, w1, w2, ⟨h1, h2⟩, ⟨hi, ⟨h3, h4⟩, rfl⟩, rfl⟩
    refine ⟨by simp; omega, ?_⟩
    rw [leValue_eq_leNat, leNat_append, h1, ← leValue_eq_leNat, ← leValue_eq_leNat, h2, h4]
    simp [U128.natVal]
    omega
  · rintro ⟨h1, h2⟩
    have e : w = w.take 8 ++ w.drop 8 := (List.take_append_drop 8 w).symm
    have l1 : (w.take 8).length = 8 := by simp; omega
    have l2 : (w.drop 8).length = 8 := by simp; omega
    rw [leValue_eq_leNat, e, leNat_append, l1] at h2
    have b1 := leNat_lt (w.take 8)
    have b2 := leNat_lt (w.drop 8)
    rw [l1] at b1
    rw [l2] at b2
    have c1 := v.lo.toNat_lt
    have c2 := v.hi.toNat_lt
    simp only [U128.natVal] at h2
    refine ⟨v.lo, w.take 8, w.drop 8, ⟨l1, ?_⟩, ⟨v.hi, ⟨l2, ?_⟩, rfl⟩, e⟩ <;> rw [leValue_eq_leNat] <;> omega

theorem checksum_exactly (n : Nat) (old : Bytes) (hn : n ≤ maxAlloc) : (Checksum.unmarshal n old).Exactly fun v w => w = v ∧ w.length = n := by
  refine (exactly_bytes_map (fun b => b.take n) hn (fun _ _ => rfl) fun _ _ _ => ⟨_, _, rfl⟩).iff fun v w => ?_
  constructor
  · rintro ⟨h, rfl⟩
    exact ⟨(List.take_of_length_le (by omega)).symm, h⟩
  · rintro ⟨rfl, h⟩
    exact ⟨h, (List.take_of_length_le (by omega)).symm⟩

theorem float128_exactly (old : Bytes) (ho : old.length = 16) : (Float128.unmarshal old).Exactly fun v w => w = v ∧ w.length = 16 := by
  refine (exactly_bytes_map (n := 16) (fun b => b.take 16 ++ old.drop b.length) (by decide) (fun _ _ => rfl) fun _ _ _ => ⟨_, _, rfl⟩).iff fun v w => ?_
  have key : w.length = 16 → w.take 16 ++ old.drop w.length = w := fun h => by
    rw [List.take_of_length_le (by omega), List.drop_eq_nil_of_le (by omega), List.append_nil]
  constructor
  · rintro ⟨h, rfl⟩
    exact ⟨(key h).symm, h⟩
  · rintro ⟨rfl, h⟩
    exact ⟨h, (key h).symm⟩

theorem asset_exactly (old : Asset) : (Asset.unmarshal old).Exactly AssetLayout := by
  apply Exactly.iff
  case h =>
    unfold Asset.unmarshal
    ebind readInt64_exactly with v
    emap (symbol_exactly 0)
  intro v w
  constructor
  · rintro ⟨x, w1, w2, h1, ⟨s, h2, rfl⟩, rfl⟩
    exact ⟨w1, w2, h1, h2, rfl⟩
  · rintro ⟨w1, w2, h1, h2, rfl⟩
    exact ⟨v.value, w1, w2, h1, ⟨v.symbol, h2, rfl⟩, rfl⟩

theorem extendedAsset_exactly (old : ExtendedAsset) : (ExtendedAsset.unmarshal old).Exactly (ChainTy.Layout .extendedAsset) := by
  apply Exactly.iff
  case h =>
    unfold ExtendedAsset.unmarshal
    ebind (asset_exactly old.quantity) with v
    emap (name_exactly _)
  intro v w
  constructor
  · rintro ⟨x, w1, w2, h1, ⟨s, h2, rfl⟩, rfl⟩
    exact ⟨w1, w2, h1, h2, rfl⟩
  · rintro ⟨w1, w2, h1, h2, rfl⟩
    exact ⟨v.quantity, w1, w2, h1, ⟨v.contract, h2, rfl⟩, rfl⟩

/-! ### Reads whose error is dropped -/

/-- A read of a fixed number of bytes that fails has used up the stream. -/
theorem readUint64_dry {fin : Err} {bs r : Bytes} {v : UInt64} {e : Err} (h : readUint64.runE fin bs = .ok (v, some e) r) : r = [] := by
  unfold readUint64 at h
  by_cases hl : 8 ≤ bs.length
  · have e1 : bs = bs.take 8 ++ bs.drop 8 := (List.take_append_drop _ _).symm
    have ht : (bs.take 8).length = 8 := by simp; omega
    rw [Dec.runE_bind, e1, show readBytes 8 = readBytes (8 : Nat) from rfl, readBytes_reads fin 8 (by decide) _ _ ht] at h
    cases h
  · have : readBytes 8 = .read 8 _ := rfl
    rw [Dec.runE_bind, this, Dec.runE_read_short _ _ _ _ (by omega)] at h
    cases h
    rfl

theorem name_dry {old : UInt64} {fin : Err} {bs r : Bytes} {v : UInt64} {e : Err} (h : (Name.unmarshal old).runE fin bs = .ok (v, some e) r) : r = [] := by
  unfold Name.unmarshal at h
  obtain ⟨⟨x, e'⟩, r', h1, h2⟩ := Dec.runE_bind_ok h
  cases e' with
  | none => cases h2
  | some e' => cases h2; exact readUint64_dry h1

/-- The error of the first read is dropped, but what follows then fails. -/
theorem Dec.exactly_name {α : Type} {old : UInt64} {f : UInt64 × Option Err → Dec (α × Option Err)} {S : UInt64 → α → Bytes → Prop} (hf : ∀ b, (f (b, none)).Exactly (S b))
    (he : ∀ b e fin a r, (f (b, some e)).runE fin [] ≠ .ok (a, none) r) : (Name.unmarshal old >>= f).Exactly fun a w => ∃ b w1 w2, LeForm 8 b.toNat w1 ∧ S b a w2 ∧ w = w1 ++ w2 := by
  refine (exactly_bind (ok := fun b => b.2 = none) (Q := fun b w => LeForm 8 b.1.toNat w) (S := fun b => S b.1) ?_ ?_ ?_).iff ?_
  · rintro fin bs ⟨b, e⟩ r rfl
    exact name_exactly old fin bs b r
  · rintro fin bs ⟨b, e⟩ r hne h a r'
    cases e with
    | none => exact absurd rfl hne
    | some e =>
      rw [name_dry h]
      exact he b e fin a r'
  · rintro ⟨b, e⟩ rfl
    exact hf b
  · intro a w
    constructor
    · rintro ⟨⟨b, e⟩, w1, w2, -, h⟩
      exact ⟨b, w1, w2, h⟩
    · rintro ⟨b, w1, w2, h⟩
      exact ⟨(b, none), w1, w2, rfl, h⟩

theorem name_empty (old : UInt64) (fin : Err) : (Name.unmarshal old).runE fin [] = .ok (old, some fin) [] := by
  have : readUint64.runE fin [] = .ok (0, some fin) [] := by
    unfold readUint64
    have e : readBytes 8 = .read 8 _ := rfl
    rw [Dec.runE_bind, e, Dec.runE_read_short _ _ _ _ (by decide)]
    simp [shortErr]
  unfold Name.unmarshal
  rw [Dec.runE_bind, this]
  rfl

theorem perm_exactly (old : PermissionLevel) : (PermissionLevel.unmarshal old).Exactly PermLayout := by
  apply Exactly.iff
  case h =>
    unfold PermissionLevel.unmarshal
    apply exactly_name
    · intro v
      emap (name_exactly _)
    · intro b e fin a r h
      rw [Dec.runE_bind, name_empty] at h
      cases h
  intro v w
  constructor
  · rintro ⟨x, w1, w2, h1, ⟨s, h2, rfl⟩, rfl⟩
    exact ⟨w1, w2, h1, h2, rfl⟩
  · rintro ⟨w1, w2, h1, h2, rfl⟩
    exact ⟨v.actor, w1, w2, h1, ⟨v.permission, h2, rfl⟩, rfl⟩

theorem authLoop_exactly (k : Nat) (auth : List PermissionLevel) : (authLoop k auth).Exactly fun a w => ∃ xs, xs.length = k ∧ Each PermLayout xs w ∧ a = auth ++ xs := by
  induction k generalizing auth with
  | zero =>
    refine (exactly_pure auth).iff fun a w => ?_
    constructor
    · rintro ⟨rfl, rfl⟩
      exact ⟨[], rfl, .nil, (List.append_nil _).symm⟩
    · rintro ⟨xs, h1, h2, rfl⟩
      obtain rfl := List.eq_nil_of_length_eq_zero h1
      cases h2
      exact ⟨List.append_nil _, rfl⟩
  | succ k ih =>
    apply Exactly.iff
    case h =>
      unfold authLoop
      ebind (perm_exactly .zero) with pl
      exact ih (auth ++ [pl])
    intro a w
    constructor
    · rintro ⟨pl, w1, w2, h1, ⟨xs, h2, h3, rfl⟩, rfl⟩
      exact ⟨pl :: xs, by simp [h2], .cons h1 h3, by simp⟩
    · rintro ⟨xs, h1, h2, rfl⟩
      cases h2 with
      | nil => cases h1
      | cons hx hxs => exact ⟨_, _, _, hx, ⟨_, by simpa using h1, hxs, by simp⟩, rfl⟩

theorem goInt_anyCount (l : UInt64) (lb : Bytes) (n : Nat) (h : AnyLeb lb l.toNat) (hn : n = (goInt l).toNat) : AnyCount lb n := by
  have hl := l.toNat_lt
  by_cases h0 : l.toNat < 2 ^ 63
  · have : goInt l = l.toNat := (goInt_eq l _).2 ⟨rfl, h0⟩
    have e : n = l.toNat := by omega
    exact .inl ⟨e ▸ h, by omega⟩
  · have : goInt l < 0 := by
      unfold goInt
      rw [toInt64_toInt, Int.bmod_def]
      omega
    exact .inr ⟨by omega, l.toNat, h, by omega⟩

theorem anyCount_goInt (lb : Bytes) (n : Nat) (h : AnyCount lb n) : ∃ l : UInt64, AnyLeb lb l.toNat ∧ n = (goInt l).toNat := by
  rcases h with ⟨h, hn⟩ | ⟨rfl, m, h, hm⟩
  · have e : n.toUInt64.toNat = n := by simp; omega
    refine ⟨n.toUInt64, by rw [e]; exact h, ?_⟩
    rw [(goInt_eq n.toUInt64 n).2 ⟨e, hn⟩]
    rfl
  · have e : m.toUInt64.toNat = m := by have := h.2.2.2; simp; omega
    refine ⟨m.toUInt64, by rw [e]; exact h, ?_⟩
    have : goInt m.toUInt64 < 0 := by
      have := h.2.2.2
      unfold goInt
      rw [toInt64_toInt, Int.bmod_def, e]
      omega
    omega

theorem action_exactly (old : Action) (ho : old.authorization = []) : (Action.unmarshal old).Exactly ActionTakes := by
  unfold Action.unmarshal
  apply Exactly.iff
  case h =>
    apply exactly_name
    · intro ac
      apply exactly_name
      · intro n
        ebind readVaruint_exactly with l
        ebind (authLoop_exactly _ _) with auth
        emap (bytes_exactly _)
      · intro b e fin a r h
        rw [Dec.runE_bind, varuint_empty] at h
        cases h
    · intro b e fin a r h
      rw [Dec.runE_bind, name_empty, Out.bind_ok, Dec.runE_bind, varuint_empty] at h
      cases h
  intro v w
  · constructor
    · rintro ⟨ac, w1, _, h1, ⟨n, w2, _, h2, ⟨l, w3, _, h3, ⟨auth, w4, w5, ⟨xs, h4, h5, rfl⟩, ⟨d, h6, rfl⟩, rfl⟩, rfl⟩, rfl⟩, rfl⟩
      rw [ho, List.nil_append]
      exact ⟨w1, w2, w3, w4, w5, h1, h2, goInt_anyCount l w3 _ h3 h4, h5, h6, by simp⟩
    · rintro ⟨w1, w2, w3, w4, w5, h1, h2, h3, h4, h5, rfl⟩
      obtain ⟨l, h6, h7⟩ := anyCount_goInt _ _ h3
      exact ⟨v.account, w1, _, h1, ⟨v.name, w2, _, h2, ⟨l, w3, _, h6, ⟨v.authorization, w4, w5, ⟨_, h7, h4, by rw [ho]; rfl⟩, ⟨v.data, h5, rfl⟩, rfl⟩, rfl⟩, rfl⟩, by simp⟩

theorem header_exactly (old : TxHeader) : (TxHeader.unmarshal old).Exactly HeaderTakes := by
  unfold TxHeader.unmarshal
  apply Exactly.iff
  case h =>
    ebind (timePointSec_exactly _) with e
    ebind readUint16_exactly with n
    ebind readUint32_exactly with p
    ebind readVaruint_exactly with mw
    ebind readUint8_exactly with c
    emap readVaruint_exactly
  intro v w
  constructor
  · rintro ⟨e, w1, _, h1, ⟨n, w2, _, h2, ⟨p, w3, _, h3, ⟨mw, w4, _, h4, ⟨c, w5, w6, h5, ⟨d, h6, rfl⟩, rfl⟩, rfl⟩, rfl⟩, rfl⟩, rfl⟩
    exact ⟨w1, w2, w3, w4, w5, w6, h1, h2, h3, h4, (u8_form _ _).2 h5, h6, by simp⟩
  · rintro ⟨w1, w2, w3, w4, w5, w6, h1, h2, h3, h4, h5, h6, rfl⟩
    exact ⟨_, w1, _, h1, ⟨_, w2, _, h2, ⟨_, w3, _, h3, ⟨_, w4, _, h4, ⟨_, w5, w6, (u8_form _ _).1 h5, ⟨_, h6, rfl⟩, rfl⟩, rfl⟩, rfl⟩, rfl⟩, by simp⟩

theorem extension_exactly (old : TxExtension) : (TxExtension.unmarshal old).Exactly ExtensionTakes := by
  apply Exactly.iff
  case h =>
    unfold TxExtension.unmarshal
    ebind readUint16_exactly with t
    emap (bytes_exactly _)
  intro v w
  constructor
  · rintro ⟨x, w1, w2, h1, ⟨s, h2, rfl⟩, rfl⟩
    exact ⟨w1, w2, h1, h2, rfl⟩
  · rintro ⟨w1, w2, h1, h2, rfl⟩
    exact ⟨v.type, w1, w2, h1, ⟨v.data, h2, rfl⟩, rfl⟩

/-! ### Loops over elements -/

theorem decEach_exactly {α : Type} {R : α → Bytes → Prop} {dec : α → Dec (α × Option Err)} (xs : List α) (h : ∀ x ∈ xs, (dec x).Exactly R) :
    (decEach dec xs).Exactly fun ys w => ys.length = xs.length ∧ Each R ys w := by
  induction xs with
  | nil =>
    refine (exactly_pure []).iff fun a w => ?_
    constructor
    · rintro ⟨rfl, rfl⟩
      exact ⟨rfl, .nil⟩
    · rintro ⟨h1, h2⟩
      obtain rfl := List.eq_nil_of_length_eq_zero h1
      cases h2
      exact ⟨rfl, rfl⟩
  | cons x xs ih =>
    apply Exactly.iff
    case h =>
      unfold decEach
      ebind (h x List.mem_cons_self) with y
      emap (ih fun z hz => h z (List.mem_cons_of_mem _ hz))
    intro a w
    constructor
    · rintro ⟨y, w1, w2, h1, ⟨ys, ⟨h2, h3⟩, rfl⟩, rfl⟩
      exact ⟨by simp [h2], .cons h1 h3⟩
    · rintro ⟨h1, h2⟩
      cases h2 with
      | nil => cases h1
      | cons hx hxs => exact ⟨_, _, _, hx, ⟨_, ⟨by simpa using h1, hxs⟩, rfl⟩, rfl⟩

theorem makeSlice_exactly {α β : Type} {zero : α} {size : Nat} {l : UInt64} {k : List α → Dec (β × Option Err)} {S : β → Bytes → Prop} (h : (k (List.replicate l.toNat zero)).Exactly S) :
    (makeSlice zero size l k).Exactly fun b w => l.toNat < 2 ^ 63 ∧ l.toNat * size ≤ maxAlloc ∧ S b w := by
  unfold makeSlice
  split
  · rename_i h0
    refine (never_panic _).exactly fun b w hh => ?_
    have := (goInt_eq l _).2 ⟨rfl, hh.1⟩
    omega
  · split
    · rename_i h1
      refine (never_panic _).exactly fun b w hh => ?_
      omega
    · rename_i h0 h1
      refine h.iff fun b w => ⟨fun hs => ⟨?_, by omega, hs⟩, fun hs => hs.2.2⟩
      have := goInt_nonneg l (by omega)
      exact ((goInt_eq l l.toNat).1 this.symm).2

theorem decSlice_exactly {α : Type} {R : α → Bytes → Prop} (zero : α) (size : Nat) {dec : α → Dec (α × Option Err)} (old : List α) (h : (dec zero).Exactly R) :
    (decSlice zero size dec old).Exactly (SizedEach size R) := by
  apply Exactly.iff
  case h =>
    unfold decSlice
    ebind readVaruint_exactly with l
    exact makeSlice_exactly (decEach_exactly _ fun x hx => by rw [List.eq_of_mem_replicate hx]; exact h)
  intro v w
  constructor
  · rintro ⟨l, w1, w2, h1, ⟨h2, h3, h4, h5⟩, rfl⟩
    rw [List.length_replicate] at h4
    exact ⟨w1, w2, h4 ▸ h1, h4 ▸ h2, h4 ▸ h3, h5, rfl⟩
  · rintro ⟨w1, w2, h1, h2, h3, h4, rfl⟩
    have e : v.length.toUInt64.toNat = v.length := by simp; omega
    exact ⟨v.length.toUInt64, w1, w2, by rw [e]; exact h1, ⟨by rw [e]; exact h2, by rw [e]; exact h3, by rw [List.length_replicate, e], h4⟩, rfl⟩

theorem transaction_exactly (old : Transaction) : (Transaction.unmarshal old).Exactly TransactionTakes := by
  unfold Transaction.unmarshal
  apply Exactly.iff
  case h =>
    ebind (header_exactly _) with h
    ebind (decSlice_exactly _ _ _ (action_exactly .zero rfl)) with cfa
    ebind (decSlice_exactly _ _ _ (action_exactly .zero rfl)) with acts
    emap (decSlice_exactly _ _ _ (extension_exactly .zero))
  intro v w
  constructor
  · rintro ⟨_, w1, _, h1, ⟨_, w2, _, h2, ⟨_, w3, w4, h3, ⟨_, h4, rfl⟩, rfl⟩, rfl⟩, rfl⟩
    exact ⟨w1, w2, w3, w4, h1, h2, h3, h4, by simp⟩
  · rintro ⟨w1, w2, w3, w4, h1, h2, h3, h4, rfl⟩
    exact ⟨_, w1, _, h1, ⟨_, w2, _, h2, ⟨_, w3, w4, h3, ⟨_, h4, rfl⟩, rfl⟩, rfl⟩, by simp⟩

/-! ### Keys and signatures -/

theorem putLen_exactly {α : Type} {l : UInt64} {f : Bytes → Dec (α × Option Err)} {S : Bytes → α → Bytes → Prop} (hf : ∀ m, (f m).Exactly (S m)) :
    (putLen l f).Exactly fun a w => ∃ m, MinLeb m l.toNat ∧ l.toNat < 2 ^ 35 ∧ S m a w := by
  unfold putLen
  cases hp : putUvarint 5 l with
  | none =>
    refine (never_panic _).exactly fun a w ⟨m, _, h, _⟩ => ?_
    have := (putUvarint_isSome 5 l).2 ⟨by omega, by decide⟩
    rw [hp] at this
    cases this
  | some m =>
    have h1 : l.toNat < 2 ^ 35 := by
      have := ((putUvarint_isSome 5 l).1 (by rw [hp]; rfl)).1
      omega
    refine (hf m).iff fun a w => ⟨fun h => ⟨m, putUvarint_minLeb _ _ _ hp, h1, h⟩, fun ⟨m', h2, _, h3⟩ => ?_⟩
    rw [minLeb_unique _ _ _ (putUvarint_minLeb _ _ _ hp) h2]
    exact h3

theorem key_exactly (old : PubKey) : (PubKey.unmarshal old).Exactly KeyTakes := by
  unfold PubKey.unmarshal
  apply Exactly.iff
  case h =>
    refine readByte_exactly.bind (S := fun t (a : PubKey) w => a.type = t ∧ KeyTakes a (t :: w)) (fun t => ?_) fun _ _ => never_fail _ _
    show Dec.Exactly (if (t == 0 || t == 1) = true then _ else if (t == 2) = true then _ else _) _
    split
    · rename_i ht
      simp only [Bool.or_eq_true, beq_iff_eq] at ht
      refine (exactly_bytes_map (n := 33) (fun b => ⟨t, b⟩) (by decide) (fun _ _ => rfl) fun _ _ _ => ⟨_, _, rfl⟩).iff fun a w => ?_
      constructor
      · rintro ⟨h1, rfl⟩
        exact ⟨rfl, .inl ⟨ht, h1, rfl⟩⟩
      · rintro ⟨rfl, ⟨_, h1, h2⟩ | ⟨h1, _⟩⟩
        · obtain rfl := (List.cons.inj h2).2
          exact ⟨h1, rfl⟩
        · rcases ht with h | h <;> rw [h] at h1 <;> exact absurd h1 (by decide)
    · rename_i hn
      split
      · rename_i ht
        obtain rfl : t = 2 := by simpa using ht
        apply Exactly.iff
        case h =>
          ebytes point hpt
          ebind readVaruint_exactly with l
          ebytes rpid hr
          exact putLen_exactly fun m => exactly_pure _
        intro a w
        constructor
        · rintro ⟨point, _, h1, _, ⟨l, lb, _, h3, ⟨id, _, h4, _, ⟨m, h6, h7, rfl, rfl⟩, rfl⟩, rfl⟩, rfl⟩
          obtain ⟨h8, _⟩ := (goInt_eq l _).1 h4.symm
          rw [h8] at h3 h6 h7
          exact ⟨rfl, .inr ⟨rfl, point, lb, m, id, by omega, ⟨h3, h6, h7⟩, rfl, by simp⟩⟩
        · rintro ⟨ha, ⟨h1 | h1, _⟩ | ⟨_, point, lb, m, id, h1, ⟨h2, h3, h4⟩, h5, h6⟩⟩
          · rw [ha] at h1; cases h1
          · rw [ha] at h1; cases h1
          · obtain rfl := (List.cons.inj h6).2
            have e : id.length.toUInt64.toNat = id.length := by simp; omega
            have hm : (2 : Nat) ^ 35 ≤ maxAlloc := by decide
            refine ⟨point, _, by omega, by rw [h1]; decide, ⟨id.length.toUInt64, lb, _, by rw [e]; exact h2, ⟨id, _, ((goInt_eq _ _).2 ⟨e, by omega⟩).symm, by omega, ⟨m, by rw [e]; exact h3, by rw [e]; exact h4, ?_, rfl⟩, rfl⟩, rfl⟩, by simp⟩
            cases a
            simp only at ha h5
            rw [ha, h5]
      · rename_i ht
        refine (never_fail _ _).exactly fun a w ⟨ha, h⟩ => ?_
        simp only [Bool.or_eq_true, beq_iff_eq, not_or] at hn ht
        rcases h with ⟨h, _⟩ | ⟨h, _⟩
        · rw [ha] at h
          rcases h with h | h
          · exact hn.1 h
          · exact hn.2 h
        · rw [ha] at h
          exact ht h
  intro v w
  · constructor
    · rintro ⟨t, w1, w2, rfl, ⟨rfl, h⟩, rfl⟩
      exact h
    · intro h
      have : ∃ w2, w = v.type :: w2 := by
        rcases h with ⟨_, _, h⟩ | ⟨_, _, _, _, _, _, _, _, h⟩ <;> exact ⟨_, h⟩
      obtain ⟨w2, rfl⟩ := this
      exact ⟨v.type, [v.type], w2, rfl, ⟨rfl, h⟩, rfl⟩

theorem sig_exactly (old : Sig) : (Sig.unmarshal old).Exactly SigTakes := by
  unfold Sig.unmarshal
  apply Exactly.iff
  case h =>
    refine readByte_exactly.bind (S := fun t (a : Sig) w => a.type = t ∧ SigTakes a (t :: w)) (fun t => ?_) fun _ _ => never_fail _ _
    show Dec.Exactly (if (t == 0 || t == 1) = true then _ else if (t == 2) = true then _ else _) _
    split
    · rename_i ht
      simp only [Bool.or_eq_true, beq_iff_eq] at ht
      refine (exactly_bytes_map (n := 65) (fun b => ⟨t, b⟩) (by decide) (fun _ _ => rfl) fun _ _ _ => ⟨_, _, rfl⟩).iff fun a w => ?_
      constructor
      · rintro ⟨h1, rfl⟩
        exact ⟨rfl, .inl ⟨ht, h1, rfl⟩⟩
      · rintro ⟨rfl, ⟨_, h1, h2⟩ | ⟨h1, _⟩⟩
        · obtain rfl := (List.cons.inj h2).2
          exact ⟨h1, rfl⟩
        · rcases ht with h | h <;> rw [h] at h1 <;> exact absurd h1 (by decide)
    · rename_i hn
      split
      · rename_i ht
        obtain rfl : t = 2 := by simpa using ht
        apply Exactly.iff
        case h =>
          ebytes sig hs
          ebind readVaruint_exactly with l
          ebytes ad hr
          ebind readVaruint_exactly with l'
          ebytes cd hr
          exact putLen_exactly fun m => putLen_exactly fun m' => exactly_pure _
        intro a w
        constructor
        · rintro ⟨sig, _, h1, _, ⟨l, lb, _, h3, ⟨ad, _, h4, _, ⟨l', lb', _, h3', ⟨cd, _, h4', _, ⟨m, h6, h7, m', h6', h7', rfl, rfl⟩, rfl⟩, rfl⟩, rfl⟩, rfl⟩, rfl⟩
          obtain ⟨h8, _⟩ := (goInt_eq l _).1 h4.symm
          rw [h8] at h3 h6 h7
          obtain ⟨h8', _⟩ := (goInt_eq l' _).1 h4'.symm
          rw [h8'] at h3' h6' h7'
          exact ⟨rfl, .inr ⟨rfl, sig, lb, m, ad, lb', m', cd, by omega, ⟨h3, h6, h7⟩, ⟨h3', h6', h7'⟩, rfl, by simp⟩⟩
        · rintro ⟨ha, ⟨h1 | h1, _⟩ | ⟨_, sig, lb, m, ad, lb', m', cd, h1, ⟨h2, h3, h4⟩, ⟨h2', h3', h4'⟩, h5, h6⟩⟩
          · rw [ha] at h1; cases h1
          · rw [ha] at h1; cases h1
          · obtain rfl := (List.cons.inj h6).2
            have e : ad.length.toUInt64.toNat = ad.length := by simp; omega
            have e' : cd.length.toUInt64.toNat = cd.length := by simp; omega
            have hm : (2 : Nat) ^ 35 ≤ maxAlloc := by decide
            refine ⟨sig, _, by omega, by rw [h1]; decide, ⟨ad.length.toUInt64, lb, _, by rw [e]; exact h2, ⟨ad, _, ((goInt_eq _ _).2 ⟨e, by omega⟩).symm, by omega,
              ⟨cd.length.toUInt64, lb', _, by rw [e']; exact h2', ⟨cd, _, ((goInt_eq _ _).2 ⟨e', by omega⟩).symm, by omega,
              ⟨m, by rw [e]; exact h3, by rw [e]; exact h4, m', by rw [e']; exact h3', by rw [e']; exact h4', ?_, rfl⟩, rfl⟩, rfl⟩, rfl⟩, rfl⟩, by simp⟩
            cases a
            simp only at ha h5
            rw [ha, h5]
      · rename_i ht
        refine (never_fail _ _).exactly fun a w ⟨ha, h⟩ => ?_
        simp only [Bool.or_eq_true, beq_iff_eq, not_or] at hn ht
        rcases h with ⟨h, _⟩ | ⟨h, _⟩
        · rw [ha] at h
          rcases h with h | h
          · exact hn.1 h
          · exact hn.2 h
        · rw [ha] at h
          exact ht h
  intro v w
  · constructor
    · rintro ⟨t, w1, w2, rfl, ⟨rfl, h⟩, rfl⟩
      exact h
    · intro h
      have : ∃ w2, w = v.type :: w2 := by
        rcases h with ⟨_, _, h⟩ | ⟨_, _, _, _, _, _, _, _, _, _, _, _, h⟩ <;> exact ⟨_, h⟩
      obtain ⟨w2, rfl⟩ := this
      exact ⟨v.type, [v.type], w2, rfl, ⟨rfl, h⟩, rfl⟩

theorem optBytes_exactly (old : Option Bytes) : (unmarshalBytes old).Exactly fun v w => ∃ x : Bytes, v = some x ∧ Sized w x :=
  ((bytes_exactly _).map (g := some) (fun _ => rfl) fun _ _ => ⟨_, _, rfl⟩).iff fun _ _ => exists_congr fun _ => and_comm

theorem chain_exactly (c : ChainTy) (old : c.Val) (ho : c.Clean old) : (c.unmarshal old).Exactly c.Takes := by
  cases c with
  | action => exact action_exactly old ho
  | asset => exact asset_exactly old
  | blob => exact optBytes_exactly old
  | bytes => exact optBytes_exactly old
  | blockNum => exact blockNum_exactly old
  | blockTimestamp => exact timePointSec_exactly old
  | timePointSec => exact timePointSec_exactly old
  | checksum160 => exact checksum_exactly 20 old (by decide)
  | checksum256 => exact checksum_exactly 32 old (by decide)
  | checksum512 => exact checksum_exactly 64 old (by decide)
  | float128 => exact float128_exactly old ho
  | int128 => exact u128_exactly old
  | uint128 => exact u128_exactly old
  | name => exact name_exactly old
  | symbol => exact symbol_exactly old
  | symbolCode => exact symbol_exactly old
  | uint64 => exact uint64_exactly old
  | permissionLevel => exact perm_exactly old
  | publicKey => exact key_exactly old
  | signature => exact sig_exactly old
  | timePoint => exact timePoint_exactly old
  | transaction => exact transaction_exactly old
  | transactionExtension => exact extension_exactly old
  | transactionHeader => exact header_exactly old
  | extendedAsset => exact extendedAsset_exactly old

end Verif
