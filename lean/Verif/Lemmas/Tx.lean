import Verif.Spec.Tx
import Verif.Lemmas.Keys
import Verif.Lemmas.Text
import Verif.Props.Blob
namespace Verif

theorem leForm_leBytes (n v : Nat) (h : v < 256 ^ n) : LeForm n v (leBytes n v) :=
  ⟨length_leBytes _ _, by rw [leValue_eq_leNat, leNat_leBytes, Nat.mod_eq_of_lt h]⟩

theorem leForm_unique (n v : Nat) (a b : Bytes) (ha : LeForm n v a) (hb : LeForm n v b) : a = b := by
  have h1 := leBytes_leNat' n a ha.1
  have h2 := leBytes_leNat' n b hb.1
  have e : leNat a = leNat b := by rw [← leValue_eq_leNat, ← leValue_eq_leNat, ha.2, hb.2]
  rw [← h1, e, h2]

theorem varuintBytes_minLeb (n : Nat) (h : n < 2 ^ 28) : MinLeb (varuintBytes n) n := by
  obtain ⟨bs, h1, h2⟩ := writeVaruint_run n.toUInt64 (by rw [toUInt64_toNat n h]; exact h)
  have := putUvarint_minLeb _ _ _ h1
  rw [toUInt64_toNat n h] at this
  simpa only [varuintBytes, h1, Option.getD_some] using this

theorem leForm8 (v : UInt64) : LeForm 8 v.toNat (leBytes 8 v.toNat) := leForm_leBytes _ _ v.toNat_lt
theorem leForm4 (v : UInt32) : LeForm 4 v.toNat (leBytes 4 v.toNat) := leForm_leBytes _ _ v.toNat_lt
theorem leForm2 (v : UInt16) : LeForm 2 v.toNat (leBytes 2 v.toNat) := leForm_leBytes _ _ v.toNat_lt
theorem leForm1 (v : UInt8) : LeForm 1 v.toNat [v] := ⟨rfl, by rw [leValue_eq_leNat]; simp [leNat]⟩

theorem name_marshal_writes (n : UInt64) : (Name.marshal n).Writes (leBytes 8 n.toNat) := writeBytes_writes _
theorem name_reads (n old : UInt64) : (Name.unmarshal old).Reads (leBytes 8 n.toNat) n := (readUint64_reads n).last rfl

/-! ### Lists -/

theorem encEach_writes {α : Type} (enc : α → Enc (Option Err)) (k : Enc (Option Err)) (f : α → Bytes) (b : Bytes) (hk : k.Writes b) (xs : List α)
    (h : ∀ x ∈ xs, (enc x).Writes (f x)) : (encEach enc k xs).Writes (xs.flatMap f ++ b) := by
  induction xs with
  | nil => exact hk
  | cons x xs ih =>
    rw [List.flatMap_cons, List.append_assoc]
    exact Enc.Writes.bind (h x (by simp)) (ih fun y hy => h y (by simp [hy]))

theorem decEach_reads {α : Type} (dec : α → Dec (α × Option Err)) (f : α → Bytes) (zero : α) (xs : List α)
    (h : ∀ x ∈ xs, (dec zero).Reads (f x) x) : (decEach dec (List.replicate xs.length zero)).Reads (xs.flatMap f) xs := by
  induction xs with
  | nil => exact Dec.Reads.pure []
  | cons x xs ih =>
    rw [List.flatMap_cons, List.length_cons, List.replicate_succ]
    exact Dec.Reads.bind (h x (by simp)) ((ih fun y hy => h y (by simp [hy])).last rfl)

theorem each_flatMap {α : Type} (R : α → Bytes → Prop) (f : α → Bytes) (xs : List α) (h : ∀ x ∈ xs, R x (f x)) : Each R xs (xs.flatMap f) := by
  induction xs with
  | nil => exact .nil
  | cons x xs ih => exact .cons (h x (by simp)) (ih fun y hy => h y (by simp [hy]))

theorem each_unique {α : Type} (R : α → Bytes → Prop) (h : ∀ x a b, R x a → R x b → a = b) (xs : List α) (a b : Bytes) (ha : Each R xs a) (hb : Each R xs b) : a = b := by
  induction ha generalizing b with
  | nil => cases hb; rfl
  | cons h1 h2 ih =>
    cases hb with
    | cons g1 g2 => rw [h _ _ _ h1 g1, ih _ g2]

theorem counted_unique {α : Type} (R : α → Bytes → Prop) (h : ∀ x a b, R x a → R x b → a = b) (xs : List α) (a b : Bytes) (ha : Counted R xs a) (hb : Counted R xs b) : a = b := by
  obtain ⟨l, e, h1, h2, rfl⟩ := ha
  obtain ⟨l', e', g1, g2, rfl⟩ := hb
  rw [minLeb_unique _ _ _ h1 g1, each_unique R h _ _ _ h2 g2]

theorem prefixed_unique (x a b : Bytes) (ha : Prefixed a x) (hb : Prefixed b x) : a = b := by
  obtain ⟨l, h1, rfl⟩ := ha
  obtain ⟨l', g1, rfl⟩ := hb
  rw [minLeb_unique _ _ _ h1 g1]

theorem encSlice_writes {α : Type} (enc : α → Enc (Option Err)) (f : α → Bytes) (xs : List α) (k : Enc (Option Err)) (b : Bytes) (hl : xs.length < 2 ^ 28)
    (h : ∀ x ∈ xs, (enc x).Writes (f x)) (hk : k.Writes b) : (encSlice enc xs k).Writes (varuintBytes xs.length ++ xs.flatMap f ++ b) := by
  rw [List.append_assoc]
  exact Enc.Writes.bind (writeVaruint_writes _ hl) (encEach_writes enc k f b hk xs h)

theorem decSlice_reads {α : Type} (zero : α) (size : Nat) (dec : α → Dec (α × Option Err)) (old : List α) (f : α → Bytes) (xs : List α) (hl : xs.length < 2 ^ 28)
    (hs : size ≤ 64) (h : ∀ x ∈ xs, (dec zero).Reads (f x) x) : (decSlice zero size dec old).Reads (varuintBytes xs.length ++ xs.flatMap f) xs := by
  refine Dec.Reads.bind (readVaruint_reads _ hl) ?_
  dsimp only
  unfold makeSlice
  rw [goInt_toUInt64 _ (by omega), if_neg (by omega), toUInt64_toNat _ hl]
  have : ¬ xs.length * size > maxAlloc := by
    have := Nat.mul_le_mul (Nat.le_of_lt hl) hs
    unfold maxAlloc
    omega
  rw [if_neg this]
  exact decEach_reads dec f zero xs h

/-! ### Bytes of each structure -/

def PermissionLevel.bytes (pl : PermissionLevel) : Bytes := leBytes 8 pl.actor.toNat ++ leBytes 8 pl.permission.toNat
def dataBytes (b : Bytes) : Bytes := varuintBytes b.length ++ b
def Action.bytes (a : Action) : Bytes :=
  leBytes 8 a.account.toNat ++ (leBytes 8 a.name.toNat ++ (varuintBytes a.authorization.length ++ (a.authorization.flatMap PermissionLevel.bytes ++ dataBytes a.data)))
def TxHeader.bytes (h : TxHeader) : Bytes :=
  leBytes 4 h.expiration.toNat ++ (leBytes 2 h.refBlockNum.toNat ++ (leBytes 4 h.refBlockPrefix.toNat ++ (varuintBytes h.maxNetUsageWords.toNat ++ ([h.maxCpuUsageMs] ++ varuintBytes h.delaySec.toNat))))
def TxExtension.bytes (x : TxExtension) : Bytes := leBytes 2 x.type.toNat ++ dataBytes x.data
def Transaction.bytes (tx : Transaction) : Bytes :=
  tx.header.bytes ++ (varuintBytes tx.contextFreeActions.length ++ tx.contextFreeActions.flatMap Action.bytes ++
    (varuintBytes tx.actions.length ++ tx.actions.flatMap Action.bytes ++
      (varuintBytes tx.extensions.length ++ tx.extensions.flatMap TxExtension.bytes)))

theorem prefixed_dataBytes (b : Bytes) (h : b.length < 2 ^ 28) : Prefixed (dataBytes b) b := ⟨_, varuintBytes_minLeb _ h, rfl⟩
theorem bytesT_writes (b : Bytes) (h : b.length < 2 ^ 28) : (BytesT.marshal b).Writes (dataBytes b) :=
  Enc.Writes.bind (writeVaruint_writes _ h) (writeBytes_writes _)

theorem perm_layout (pl : PermissionLevel) : PermLayout pl pl.bytes := ⟨_, _, leForm8 _, leForm8 _, rfl⟩
theorem perm_writes (pl : PermissionLevel) : pl.marshal.Writes pl.bytes :=
  Enc.Writes.bind (name_marshal_writes _) (name_marshal_writes _)
theorem perm_reads (pl old : PermissionLevel) : old.unmarshal.Reads pl.bytes pl :=
  Dec.Reads.bind (name_reads _ _) ((name_reads _ _).last rfl)

theorem action_layout (a : Action) (h : a.Small) : ActionLayout a a.bytes :=
  ⟨_, _, _, _, leForm8 _, leForm8 _, ⟨_, _, varuintBytes_minLeb _ h.1, each_flatMap _ _ _ fun x _ => perm_layout x, rfl⟩, prefixed_dataBytes _ h.2,
    by simp only [Action.bytes, List.append_assoc]⟩

theorem action_writes (a : Action) (h : a.Small) : a.marshal.Writes a.bytes :=
  Enc.Writes.bind (name_marshal_writes _) <| Enc.Writes.bind (name_marshal_writes _) <| Enc.Writes.bind (writeVaruint_writes _ h.1) <|
    encEach_writes _ _ _ _ (bytesT_writes _ h.2) _ fun x _ => perm_writes x

theorem authLoop_reads (xs old : List PermissionLevel) : (authLoop xs.length old).Reads (xs.flatMap PermissionLevel.bytes) (old ++ xs) := by
  induction xs generalizing old with
  | nil => rw [List.append_nil]; exact Dec.Reads.pure old
  | cons x xs ih =>
    rw [List.flatMap_cons]
    have := ih (old ++ [x])
    rw [List.append_assoc] at this
    exact Dec.Reads.bind (perm_reads x _) this

theorem action_reads (a old : Action) (h : a.Small) : old.unmarshal.Reads a.bytes { a with authorization := old.authorization ++ a.authorization } := by
  refine Dec.Reads.bind (name_reads _ _) <| Dec.Reads.bind (name_reads _ _) <| Dec.Reads.bind (readVaruint_reads _ h.1) ?_
  dsimp only
  rw [goInt_toUInt64 _ (by have := h.1; omega), Int.toNat_natCast]
  exact Dec.Reads.bind (authLoop_reads _ _) ((bytesT_unmarshal_reads a.data old.data h.2).last rfl)

theorem header_layout (t : TxHeader) (h : t.Small) : HeaderLayout t t.bytes :=
  ⟨_, _, _, _, _, _, leForm4 _, leForm2 _, leForm4 _, varuintBytes_minLeb _ h.1, leForm1 _, varuintBytes_minLeb _ h.2, by simp only [TxHeader.bytes, List.append_assoc]⟩

theorem varuint_writes64 (v : UInt64) (h : v.toNat < 2 ^ 28) : (writeVaruint v).Writes (varuintBytes v.toNat) := by
  have := writeVaruint_writes v.toNat h
  have e : v.toNat.toUInt64 = v := by apply UInt64.toNat_inj.1; rw [toUInt64_toNat _ h]
  rwa [e] at this

theorem varuint_reads64 (v : UInt64) (h : v.toNat < 2 ^ 28) : readVaruint.Reads (varuintBytes v.toNat) v := by
  have := readVaruint_reads v.toNat h
  have e : v.toNat.toUInt64 = v := by apply UInt64.toNat_inj.1; rw [toUInt64_toNat _ h]
  rwa [e] at this

theorem header_writes (t : TxHeader) (h : t.Small) : t.marshal.Writes t.bytes :=
  Enc.Writes.bind (writeBytes_writes _) <| Enc.Writes.bind (writeBytes_writes _) <| Enc.Writes.bind (writeBytes_writes _) <|
    Enc.Writes.bind (varuint_writes64 _ h.1) <| Enc.Writes.bind (writeByte_writes _) (varuint_writes64 _ h.2)

theorem timePointSec_reads (t old : UInt32) : (TimePointSec.unmarshal old).Reads (leBytes 4 t.toNat) t := (readUint32_reads t).last rfl

theorem header_reads (t old : TxHeader) (h : t.Small) : old.unmarshal.Reads t.bytes t :=
  Dec.Reads.bind (timePointSec_reads _ _) <| Dec.Reads.bind (readUint16_reads _) <| Dec.Reads.bind (readUint32_reads _) <|
    Dec.Reads.bind (varuint_reads64 _ h.1) <| Dec.Reads.bind (readUint8_reads _) ((varuint_reads64 _ h.2).last rfl)

theorem extension_layout (x : TxExtension) (h : x.Small) : ExtensionLayout x x.bytes := ⟨_, _, leForm2 _, prefixed_dataBytes _ h, rfl⟩
theorem extension_writes (x : TxExtension) (h : x.Small) : x.marshal.Writes x.bytes := Enc.Writes.bind (writeBytes_writes _) (bytesT_writes _ h)
theorem extension_reads (x old : TxExtension) (h : x.Small) : old.unmarshal.Reads x.bytes x :=
  Dec.Reads.bind (readUint16_reads _) ((bytesT_unmarshal_reads _ _ h).last rfl)

theorem transaction_layout (t : Transaction) (h : t.Small) : TransactionLayout t t.bytes := by
  obtain ⟨h1, h2, h3, h4, h5, h6, h7⟩ := h
  exact ⟨_, _, _, _, header_layout _ h1, ⟨_, _, varuintBytes_minLeb _ h2, each_flatMap _ _ _ fun x hx => action_layout x (h3 x hx), rfl⟩,
    ⟨_, _, varuintBytes_minLeb _ h4, each_flatMap _ _ _ fun x hx => action_layout x (h5 x hx), rfl⟩,
    ⟨_, _, varuintBytes_minLeb _ h6, each_flatMap _ _ _ fun x hx => extension_layout x (h7 x hx), rfl⟩, by simp only [Transaction.bytes, List.append_assoc]⟩

theorem transaction_writes (t : Transaction) (h : t.Small) : t.marshal.Writes t.bytes := by
  obtain ⟨h1, h2, h3, h4, h5, h6, h7⟩ := h
  refine Enc.Writes.bind (header_writes _ h1) ?_
  refine encSlice_writes _ _ _ _ _ h2 (fun x hx => action_writes x (h3 x hx)) ?_
  refine encSlice_writes _ _ _ _ _ h4 (fun x hx => action_writes x (h5 x hx)) ?_
  have := encSlice_writes TxExtension.marshal TxExtension.bytes t.extensions (pure none) [] h6 (fun x hx => extension_writes x (h7 x hx)) Enc.Writes.pure
  rwa [List.append_nil] at this

theorem action_reads_zero (a : Action) (h : a.Small) : Action.zero.unmarshal.Reads a.bytes a := action_reads a Action.zero h

theorem transaction_reads (t old : Transaction) (h : t.Small) : old.unmarshal.Reads t.bytes t := by
  obtain ⟨h1, h2, h3, h4, h5, h6, h7⟩ := h
  refine Dec.Reads.bind (header_reads _ _ h1) ?_
  refine Dec.Reads.bind (decSlice_reads _ _ _ _ _ _ h2 (by decide) fun x hx => action_reads_zero x (h3 x hx)) ?_
  refine Dec.Reads.bind (decSlice_reads _ _ _ _ _ _ h4 (by decide) fun x hx => action_reads_zero x (h5 x hx)) ?_
  exact (decSlice_reads _ _ _ _ _ _ h6 (by decide) fun x hx => extension_reads x _ (h7 x hx)).last rfl

end Verif
