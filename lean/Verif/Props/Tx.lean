import Verif.Lemmas.TxStrict
import Verif.Props.Stream
import Verif.Props.Prim
/-! # C36, C38, C39: actions and transactions; C08–C10 and C66 for them -/
namespace Verif

/-! ## C36 round-trip -/

/-- An action with lengths below 2^28 is written as its layout, and read back into a zero Action. -/
theorem C36_action (a : Action) (h : a.Small) : ∃ bs, ActionLayout a bs ∧ a.marshal.Writes bs ∧ Action.zero.unmarshal.Reads bs a :=
  ⟨_, action_layout a h, action_writes a h, action_reads_zero a h⟩

/-- The other types, into a variable with any content. -/
theorem C36_permissionLevel (pl old : PermissionLevel) : ∃ bs, PermLayout pl bs ∧ pl.marshal.Writes bs ∧ old.unmarshal.Reads bs pl :=
  ⟨_, perm_layout pl, perm_writes pl, perm_reads pl old⟩
theorem C36_header (t old : TxHeader) (h : t.Small) : ∃ bs, HeaderLayout t bs ∧ t.marshal.Writes bs ∧ old.unmarshal.Reads bs t :=
  ⟨_, header_layout t h, header_writes t h, header_reads t old h⟩
theorem C36_extension (x old : TxExtension) (h : x.Small) : ∃ bs, ExtensionLayout x bs ∧ x.marshal.Writes bs ∧ old.unmarshal.Reads bs x :=
  ⟨_, extension_layout x h, extension_writes x h, extension_reads x old h⟩
theorem C36_transaction (t old : Transaction) (h : t.Small) : ∃ bs, TransactionLayout t bs ∧ t.marshal.Writes bs ∧ old.unmarshal.Reads bs t :=
  ⟨_, transaction_layout t h, transaction_writes t h, transaction_reads t old h⟩

/-- Non-vacuity: a transaction with a context-free action, an action with two authorizations, an extension. -/
def sampleTx : Transaction :=
  ⟨⟨1600000000, 1234, 5678, 300, 7, 0⟩, [⟨1, 2, [], [1, 2, 3]⟩], [⟨3, 4, [⟨5, 6⟩, ⟨7, 8⟩], [9]⟩], [⟨65535, [0, 255]⟩]⟩
example : sampleTx.Small := by
  unfold Transaction.Small TxHeader.Small Action.Small TxExtension.Small
  decide +kernel
example : (Transaction.unmarshal sampleTx).run (sampleTx.bytes ++ [42]) = .ok (sampleTx, none) [42] := by decide +kernel

/-! ### Outside the range -/

def Enc.Panics {α : Type} (p : Enc α) : Prop := ∃ w, p.run = .panic w

theorem Enc.Panics.first {α β : Type} {p : Enc α} {g : α → Enc β} (h : p.Panics) : (p >>= g).Panics := by
  obtain ⟨w, h⟩ := h; exact ⟨w, by rw [Enc.run_bind, h]; rfl⟩
theorem Enc.Panics.after {p : Enc (Option Err)} {β : Type} {g : Option Err → Enc β} {bs : Bytes} (h : p.Writes bs) (hg : (g none).Panics) : (p >>= g).Panics := by
  obtain ⟨w, hg⟩ := hg; exact ⟨w, by rw [Enc.run_bind, h, EOut.bind_ok, hg]; rfl⟩

theorem writeLen_panics (n : Nat) (h : 2 ^ 28 ≤ n) (hm : n < 2 ^ 63) : (writeVaruint n.toUInt64).Panics :=
  (C03_varuint_iff_partial _).2.2 (by rw [Nat.toUInt64, UInt64.toNat_ofNat', Nat.mod_eq_of_lt (by omega)]; exact h)

theorem bytesT_panics (b : Bytes) (h : 2 ^ 28 ≤ b.length) (hm : b.length < 2 ^ 63) : (BytesT.marshal b).Panics := (writeLen_panics _ h hm).first

theorem encEach_panics {α : Type} (enc : α → Enc (Option Err)) (k : Enc (Option Err)) (xs : List α)
    (hx : ∀ x ∈ xs, (enc x).Panics ∨ ∃ b, (enc x).Writes b) (h : (∃ x ∈ xs, (enc x).Panics) ∨ k.Panics) : (encEach enc k xs).Panics := by
  induction xs with
  | nil => simpa [encEach] using h
  | cons x xs ih =>
    unfold encEach
    rcases hx x (by simp) with hp | ⟨b, hb⟩
    · exact hp.first
    · refine Enc.Panics.after hb (ih (fun y hy => hx y (by simp [hy])) ?_)
      rcases h with ⟨y, hy, hp⟩ | h
      · rcases List.mem_cons.1 hy with rfl | hy
        · obtain ⟨w, hp⟩ := hp; rw [hb] at hp; cases hp
        · exact Or.inl ⟨y, hy, hp⟩
      · exact Or.inr h

theorem action_panics (a : Action) (hl : a.GoLens) (h : ¬ a.Small) : a.marshal.Panics := by
  refine Enc.Panics.after (name_marshal_writes _) (Enc.Panics.after (name_marshal_writes _) ?_)
  by_cases h1 : a.authorization.length < 2 ^ 28
  · refine Enc.Panics.after (writeVaruint_writes _ h1) (encEach_panics _ _ _ (fun x _ => Or.inr ⟨_, perm_writes x⟩) (Or.inr ?_))
    exact bytesT_panics _ (by unfold Action.Small at h; omega) hl.2
  · exact (writeLen_panics _ (by omega) hl.1).first

theorem header_panics (t : TxHeader) (h : ¬ t.Small) : t.marshal.Panics := by
  refine Enc.Panics.after (writeBytes_writes _) (Enc.Panics.after (writeBytes_writes _) (Enc.Panics.after (writeBytes_writes _) ?_))
  by_cases h1 : t.maxNetUsageWords.toNat < 2 ^ 28
  · refine Enc.Panics.after (varuint_writes64 _ h1) (Enc.Panics.after (writeByte_writes _) ?_)
    exact (C03_varuint_iff_partial _).2.2 (by unfold TxHeader.Small at h; omega)
  · exact Enc.Panics.first ((C03_varuint_iff_partial _).2.2 (by omega))

theorem extension_panics (x : TxExtension) (hl : x.data.length < 2 ^ 63) (h : ¬ x.Small) : x.marshal.Panics :=
  Enc.Panics.after (writeBytes_writes _) (bytesT_panics _ (by unfold TxExtension.Small at h; omega) hl)

theorem encSlice_panics {α : Type} (enc : α → Enc (Option Err)) (k : Enc (Option Err)) (xs : List α) (hl : xs.length < 2 ^ 63)
    (hx : ∀ x ∈ xs, (enc x).Panics ∨ ∃ b, (enc x).Writes b) (h : ¬ xs.length < 2 ^ 28 ∨ (∃ x ∈ xs, (enc x).Panics) ∨ k.Panics) : (encSlice enc xs k).Panics := by
  by_cases h1 : xs.length < 2 ^ 28
  · exact Enc.Panics.after (writeVaruint_writes _ h1) (encEach_panics enc k xs hx (h.resolve_left (by simpa using h1)))
  · exact (writeLen_panics _ (by omega) hl).first

/-- C36, the range: encoding succeeds exactly when all lengths (and the two varuint fields) are below 2^28 and panics otherwise (C03). -/
theorem C36_action_range (a : Action) (hl : a.GoLens) : (a.Small ∧ ∃ bs, a.marshal.Writes bs) ∨ (¬ a.Small ∧ a.marshal.Panics) := by
  by_cases h : a.Small
  · exact Or.inl ⟨h, _, action_writes a h⟩
  · exact Or.inr ⟨h, action_panics a hl h⟩

theorem C36_header_range (t : TxHeader) : (t.Small ∧ ∃ bs, t.marshal.Writes bs) ∨ (¬ t.Small ∧ t.marshal.Panics) := by
  by_cases h : t.Small
  · exact Or.inl ⟨h, _, header_writes t h⟩
  · exact Or.inr ⟨h, header_panics t h⟩

theorem C36_transaction_range (t : Transaction) (hl : t.GoLens) : (t.Small ∧ ∃ bs, t.marshal.Writes bs) ∨ (¬ t.Small ∧ t.marshal.Panics) := by
  by_cases h : t.Small
  · exact Or.inl ⟨h, _, transaction_writes t h⟩
  · refine Or.inr ⟨h, ?_⟩
    obtain ⟨l1, l2, l3, l4, l5, l6⟩ := hl
    by_cases h0 : t.header.Small
    swap
    · exact (header_panics _ h0).first
    have act : ∀ a : Action, a.GoLens → a.marshal.Panics ∨ ∃ b, a.marshal.Writes b := fun a ha => by
      by_cases hs : a.Small
      · exact Or.inr ⟨_, action_writes a hs⟩
      · exact Or.inl (action_panics a ha hs)
    have ext : ∀ x : TxExtension, x.data.length < 2 ^ 63 → x.marshal.Panics ∨ ∃ b, x.marshal.Writes b := fun x hx => by
      by_cases hs : x.Small
      · exact Or.inr ⟨_, extension_writes x hs⟩
      · exact Or.inl (extension_panics x hx hs)
    have each : ∀ xs : List Action, (∀ a ∈ xs, a.GoLens) → (∃ x ∈ xs, x.marshal.Panics) ∨ ∀ x ∈ xs, x.Small := fun xs hxs => by
      by_cases hs : ∀ x ∈ xs, x.Small
      · exact Or.inr hs
      · simp only [Classical.not_forall] at hs
        obtain ⟨x, hx, hs⟩ := hs
        exact Or.inl ⟨x, hx, action_panics x (hxs x hx) hs⟩
    refine Enc.Panics.after (header_writes _ h0) (encSlice_panics _ _ _ l1 (fun x hx => act x (l4 x hx)) ?_)
    by_cases h1 : t.contextFreeActions.length < 2 ^ 28
    swap
    · exact Or.inl h1
    rcases each _ l4 with h2 | h2
    · exact Or.inr (Or.inl h2)
    refine Or.inr (Or.inr (encSlice_panics _ _ _ l2 (fun x hx => act x (l5 x hx)) ?_))
    by_cases h3 : t.actions.length < 2 ^ 28
    swap
    · exact Or.inl h3
    rcases each _ l5 with h4 | h4
    · exact Or.inr (Or.inl h4)
    refine Or.inr (Or.inr (encSlice_panics _ _ _ l3 (fun x hx => ext x (l6 x hx)) ?_))
    by_cases h5 : t.extensions.length < 2 ^ 28
    swap
    · exact Or.inl h5
    have : ¬ ∀ x ∈ t.extensions, x.Small := fun h6 => h ⟨h0, h1, h2, h3, h4, h5, h6⟩
    simp only [Classical.not_forall] at this
    obtain ⟨x, hx, hs⟩ := this
    exact Or.inr (Or.inl ⟨x, hx, extension_panics x (l6 x hx) hs⟩)

/-! ## C38 the encoding determines the value -/

theorem each_det {α : Type} {p : Dec (α × Option Err)} {b b' r r' : Bytes} {x y : α} (hx : p.Reads b x) (hy : p.Reads b' y) (h : b ++ r = b' ++ r') : x = y ∧ r = r' := by
  have e := hx .eof r
  rw [h, hy .eof r'] at e
  simp at e
  exact ⟨e.1.symm, e.2.symm⟩

/-- Two actions whose encodings begin two equal streams are equal, and so are the encodings: injective and prefix-free. -/
theorem C38_action (a b : Action) (ha : a.Small) (hb : b.Small) (x y r r' : Bytes) (hx : a.marshal.Writes x) (hy : b.marshal.Writes y)
    (h : x ++ r = y ++ r') : a = b ∧ r = r' := by
  rw [hx.det (action_writes a ha), hy.det (action_writes b hb)] at h
  exact each_det (action_reads_zero a ha) (action_reads_zero b hb) h

theorem C38_transaction (a b : Transaction) (ha : a.Small) (hb : b.Small) (x y r r' : Bytes) (hx : a.marshal.Writes x) (hy : b.marshal.Writes y)
    (h : x ++ r = y ++ r') : a = b ∧ r = r' := by
  rw [hx.det (transaction_writes a ha), hy.det (transaction_writes b hb)] at h
  exact each_det (transaction_reads a .zero ha) (transaction_reads b .zero hb) h

theorem action_layout_unique (a : Action) (x y : Bytes) (hx : ActionLayout a x) (hy : ActionLayout a y) : x = y := by
  obtain ⟨x1, x2, x3, x4, hx1, hx2, hx3, hx4, rfl⟩ := hx
  obtain ⟨y1, y2, y3, y4, hy1, hy2, hy3, hy4, rfl⟩ := hy
  have perm : ∀ (p : PermissionLevel) (u v : Bytes), PermLayout p u → PermLayout p v → u = v := by
    rintro p _ _ ⟨u1, u2, hu1, hu2, rfl⟩ ⟨v1, v2, hv1, hv2, rfl⟩
    rw [leForm_unique _ _ _ _ hu1 hv1, leForm_unique _ _ _ _ hu2 hv2]
  rw [leForm_unique _ _ _ _ hx1 hy1, leForm_unique _ _ _ _ hx2 hy2, counted_unique _ perm _ _ _ hx3 hy3, prefixed_unique _ _ _ hx4 hy4]

theorem transaction_layout_unique (t : Transaction) (x y : Bytes) (hx : TransactionLayout t x) (hy : TransactionLayout t y) : x = y := by
  obtain ⟨x1, x2, x3, x4, ⟨a1, a2, a3, a4, a5, a6, ha1, ha2, ha3, ha4, ha5, ha6, rfl⟩, hx2, hx3, hx4, rfl⟩ := hx
  obtain ⟨y1, y2, y3, y4, ⟨b1, b2, b3, b4, b5, b6, hb1, hb2, hb3, hb4, hb5, hb6, rfl⟩, hy2, hy3, hy4, rfl⟩ := hy
  have ext : ∀ (p : TxExtension) (u v : Bytes), ExtensionLayout p u → ExtensionLayout p v → u = v := by
    rintro p _ _ ⟨u1, u2, hu1, hu2, rfl⟩ ⟨v1, v2, hv1, hv2, rfl⟩
    rw [leForm_unique _ _ _ _ hu1 hv1, prefixed_unique _ _ _ hu2 hv2]
  rw [leForm_unique _ _ _ _ ha1 hb1, leForm_unique _ _ _ _ ha2 hb2, leForm_unique _ _ _ _ ha3 hb3, minLeb_unique _ _ _ ha4 hb4,
    leForm_unique _ _ _ _ ha5 hb5, minLeb_unique _ _ _ ha6 hb6, counted_unique _ action_layout_unique _ _ _ hx2 hy2,
    counted_unique _ action_layout_unique _ _ _ hx3 hy3, counted_unique _ ext _ _ _ hx4 hy4]

/-- The encoding is the only byte string with the documented layout, and any byte string with the layout of an action or transaction decodes to it. -/
theorem C38_layout_action (a : Action) (ha : a.Small) (bs : Bytes) : ActionLayout a bs ↔ a.marshal.Writes bs :=
  ⟨fun h => action_layout_unique a _ _ h (action_layout a ha) ▸ action_writes a ha, fun h => h.det (action_writes a ha) ▸ action_layout a ha⟩
theorem C38_layout_transaction (t : Transaction) (ht : t.Small) (bs : Bytes) : TransactionLayout t bs ↔ t.marshal.Writes bs :=
  ⟨fun h => transaction_layout_unique t _ _ h (transaction_layout t ht) ▸ transaction_writes t ht, fun h => h.det (transaction_writes t ht) ▸ transaction_layout t ht⟩

/-- Non-vacuity: moving a byte from the data of one action to another field changes the bytes. -/
example : (⟨1, 2, [], [3, 0]⟩ : Action).bytes ≠ (⟨1, 2, [], [3]⟩ : Action).bytes := by decide

/-! ## C39 Digest -/

/-- Digest is SHA-256 of the layout bytes, without panic, for lengths below 2^28. -/
theorem C39_digest (sha : Sha256) (a : Action) (h : a.Small) : ∃ bs, ActionLayout a bs ∧ a.digest sha = .val (sha.sum bs) := by
  refine ⟨a.bytes, action_layout a h, ?_⟩
  have := action_writes a h
  unfold Enc.Writes at this
  rw [Action.digest, this]
  dsimp only
  rw [List.take_of_length_le (by rw [sha.len])]

/-- Outside that range it panics. -/
theorem C39_panics_iff (sha : Sha256) (a : Action) (hl : a.GoLens) : (∃ w, a.digest sha = .panic w) ↔ ¬ a.Small := by
  by_cases h : a.Small
  · obtain ⟨bs, _, hb⟩ := C39_digest sha a h
    simp [hb, h]
  · obtain ⟨w, hw⟩ := action_panics a hl h
    exact ⟨fun _ => h, fun _ => ⟨w, by rw [Action.digest, hw]⟩⟩

/-- Two different actions hash different bytes: equal digests of different actions are a collision of SHA-256. -/
theorem C39_collision (sha : Sha256) (a b : Action) (ha : a.Small) (hb : b.Small) (hne : a ≠ b) (h : a.digest sha = b.digest sha) :
    ∃ x y, x ≠ y ∧ sha.sum x = sha.sum y ∧ ActionLayout a x ∧ ActionLayout b y := by
  obtain ⟨x, hx, ex⟩ := C39_digest sha a ha
  obtain ⟨y, hy, ey⟩ := C39_digest sha b hb
  refine ⟨x, y, fun hxy => hne ?_, by rw [ex, ey] at h; simpa using h, hx, hy⟩
  exact (C38_action a b ha hb x y [] [] ((C38_layout_action a ha x).1 hx) ((C38_layout_action b hb y).1 hy) (by rw [hxy])).1

example : (⟨1, 2, [⟨3, 4⟩], [5]⟩ : Action).Small := by unfold Action.Small; decide +kernel

/-! ## C08, C09 for actions and transactions -/

/-- `C08_locality` and `C09_truncation` apply to the decoders of action.go and transaction.go, whatever the destination holds. -/
theorem C09_transactions_strict :
    (∀ old : PermissionLevel, old.unmarshal.Strict true) ∧ (∀ old : Action, old.unmarshal.Strict true) ∧ (∀ old : TxHeader, old.unmarshal.Strict true) ∧
    (∀ old : TxExtension, old.unmarshal.Strict true) ∧ (∀ old : Transaction, old.unmarshal.Strict true) :=
  ⟨perm_strict, action_strict, header_strict true, extension_strict true, transaction_strict⟩

/-- Spelled out for transactions: any proper prefix of an encoding gives io.EOF or io.ErrUnexpectedEOF. -/
theorem C09_transaction (t old : Transaction) (h : t.Small) (bs : Bytes) (hw : t.marshal.Writes bs) (n : Nat) (hn : n < bs.length) :
    ∃ t' e, old.unmarshal.run (bs.take n) = .ok (t', some e) [] ∧ (e = .eof ∨ e = .unexpectedEOF) := by
  rw [hw.det (transaction_writes t h)] at hn ⊢
  exact C09_truncation true _ (transaction_strict old) _ t (transaction_reads t old h) n hn
theorem C09_action (a old : Action) (h : a.Small) (bs : Bytes) (hw : a.marshal.Writes bs) (n : Nat) (hn : n < bs.length) :
    ∃ a' e, old.unmarshal.run (bs.take n) = .ok (a', some e) [] ∧ (e = .eof ∨ e = .unexpectedEOF) := by
  rw [hw.det (action_writes a h)] at hn ⊢
  exact C09_truncation true _ (action_strict old) _ _ (action_reads a old h) n hn

/-- Non-vacuity: a transaction cut in the middle. -/
example : Transaction.zero.unmarshal.run (sampleTx.bytes.take 20) = .ok (⟨sampleTx.header, [⟨0, 0, [], []⟩], [], []⟩, some .eof) [] := by decide +kernel

/-! ## C66 read faults -/

/-- A reader whose first Read fails with 17 and then delivers the stream. -/
def faultFirst (bs : Bytes) : Reader := ⟨bs, [.fault 0 (.io 17)], .eof, false⟩

/-- What is left to do when the first read has failed like that. -/
def afterFault {α : Type} : Dec α → Dec α
  | .read n k => k (List.replicate n 0) 0 (some (.io 17))
  | p => p

theorem runR_faultFirst {α : Type} (n : Nat) (hn : n ≠ 0) (k : Bytes → Nat → Option Err → Dec α) (bs : Bytes) :
    ((Dec.read n k).runR (faultFirst bs)).forget = (afterFault (.read n k)).run bs := by
  have hr : (faultFirst bs).readFull n = (List.replicate n 0, 0, some (.io 17), ⟨bs, [], .eof, false⟩) := by
    unfold Reader.readFull
    rw [Reader.readLoop]
    simp [Reader.read, faultFirst, shortErr, hn]
  have : (Dec.read n k).runR (faultFirst bs) = (afterFault (.read n k)).runR ⟨bs, [], .eof, false⟩ := by
    simp only [Dec.runR, hr, afterFault]
  rw [this, Dec.runR_eq _ _ (by simp)]

/-- C66 is false for actions: the error of reading Account is dropped, so when only that Read fails, UnmarshalABI returns a nil error and an action that is not on the stream. -/
theorem C66_violated : ∃ (bs : Bytes) (a b : Action) (r : Reader), Action.zero.unmarshal.run bs = .ok (a, none) [0, 0, 0, 0, 0, 0, 0, 0] ∧
    Action.zero.unmarshal.runR (faultFirst bs) = .ok (b, none) r ∧ b ≠ a := by
  refine ⟨[1, 0, 0, 0, 0, 0, 0, 0, 0, 0, 0, 0, 0, 0, 0, 0, 0, 0, 0, 0, 0, 0, 0, 0, 0, 0], ⟨1, 0, [], []⟩, ⟨0, 1, [], []⟩, ?_⟩
  obtain ⟨k, hk⟩ : ∃ k, Action.zero.unmarshal = .read 8 k := ⟨_, rfl⟩
  have h := runR_faultFirst 8 (by decide) k [1, 0, 0, 0, 0, 0, 0, 0, 0, 0, 0, 0, 0, 0, 0, 0, 0, 0, 0, 0, 0, 0, 0, 0, 0, 0]
  rw [← hk] at h
  have e : (afterFault Action.zero.unmarshal).run [1, 0, 0, 0, 0, 0, 0, 0, 0, 0, 0, 0, 0, 0, 0, 0, 0, 0, 0, 0, 0, 0, 0, 0, 0, 0] =
    .ok (⟨0, 1, [], []⟩, none) [0, 0, 0, 0, 0, 0, 0, 0, 0, 0, 0, 0, 0, 0, 0, 0] := by decide +kernel
  rw [e] at h
  cases hr : Action.zero.unmarshal.runR (faultFirst [1, 0, 0, 0, 0, 0, 0, 0, 0, 0, 0, 0, 0, 0, 0, 0, 0, 0, 0, 0, 0, 0, 0, 0, 0, 0]) with
  | ok a r =>
    rw [hr] at h
    simp only [ROut.forget, Out.ok.injEq] at h
    exact ⟨r, by decide +kernel, by rw [h.1], by decide⟩
  | panic w => rw [hr] at h; cases h
  | diverge => rw [hr] at h; cases h

end Verif
