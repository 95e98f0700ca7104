import Verif.Lemmas.Bench
import Verif.Props.Tx
/-! # C42: MarshalABI against reflection -/
namespace Verif

/-- A slice without elements is nil. -/
def sliceOf {α : Type} (xs : List α) : Option (List α) := if xs = [] then none else some xs

/-- The same data in the structs of benchmarks/types.go. -/
def PermissionLevel.bench (p : PermissionLevel) : benchPerm.Val := (p.actor, p.permission, ())
def Action.bench (a : Action) : benchAction.Val := (a.account, a.name, sliceOf (a.authorization.map PermissionLevel.bench), some a.data, ())
def TxHeader.bench (h : TxHeader) : benchHeader.Val := (h.expiration, h.refBlockNum, h.refBlockPrefix, h.maxNetUsageWords, h.maxCpuUsageMs, h.delaySec, ())
def TxExtension.bench (x : TxExtension) : benchExtension.Val := (x.type, some x.data, ())
def Transaction.bench (tx : Transaction) : benchTransaction.Val :=
  (tx.header.bench, sliceOf (tx.contextFreeActions.map Action.bench), sliceOf (tx.actions.map Action.bench), sliceOf (tx.extensions.map TxExtension.bench), ())

theorem sliceOf_getD {α : Type} (xs : List α) : (sliceOf xs).getD [] = xs := by
  unfold sliceOf; split
  · rename_i h; exact h.symm
  · rfl

/-! ## Encoding -/

theorem benchPerm_like (p : PermissionLevel) : (encode benchPerm p.bench).Like p.marshal := by
  refine Enc.Like.bind (writeBytes_like _) ?_
  exact Enc.Like.last (writeBytes_like _) rfl

theorem benchData_like (b : Bytes) : (encode .bytes (some b : Option Bytes)).Like (BytesT.marshal b) := by
  refine Enc.Like.bind (varuint_like _) ?_
  exact writeBytes_like _

theorem benchSlice_like {α : Type} (t : Ty) (m : α → t.Val) (enc : α → Enc (Option Err)) (h : ∀ x, (encode t (m x)).Like (enc x)) (xs : List α)
    (f : Option Err → Enc (Option Err)) (k : Enc (Option Err)) (hk : (f none).Like k) (hf : ∀ e, f (some e) = pure (some e)) :
    (encode (.slice t) (sliceOf (xs.map m) : Option (List t.Val)) >>= f).Like (encSlice enc xs k) := by
  change Enc.Like ((writeVaruint _ >>= _) >>= f) (writeVaruint _ >>= _)
  rw [Enc.bind_assoc']
  have hl : Option.getD (sliceOf (xs.map m)) [] = xs.map m := sliceOf_getD _
  refine Enc.Like.bind ?_ ?_
  · rw [hl, List.length_map]
    exact varuint_like _
  · change Enc.Like ((encEach (encodeWith chainEncoder t) (pure none) (Option.getD (sliceOf (xs.map m)) [])) >>= f) _
    rw [hl]
    exact encEach_like _ _ _ _ _ _ h hk

theorem benchAction_like (a : Action) : (encode benchAction a.bench).Like a.marshal := by
  refine Enc.Like.bind (writeBytes_like _) ?_
  refine Enc.Like.bind (writeBytes_like _) ?_
  refine benchSlice_like benchPerm _ _ benchPerm_like _ _ _ ?_ fun e => rfl
  exact Enc.Like.last (benchData_like _) rfl

theorem benchExtension_like (x : TxExtension) : (encode benchExtension x.bench).Like x.marshal := by
  refine Enc.Like.bind (writeBytes_like _) ?_
  exact Enc.Like.last (benchData_like _) rfl

theorem benchHeader_like (x : TxHeader) : (encode benchHeader x.bench).Like x.marshal := by
  refine Enc.Like.bind (writeBytes_like _) ?_
  refine Enc.Like.bind (writeBytes_like _) ?_
  refine Enc.Like.bind (writeBytes_like _) ?_
  refine Enc.Like.bind (varuint_like _) ?_
  refine Enc.Like.bind (writeBytes_like _) ?_
  exact Enc.Like.last (varuint_like _) rfl

theorem benchTransaction_like (tx : Transaction) : (encode benchTransaction tx.bench).Like tx.marshal := by
  refine Enc.Like.bind (benchHeader_like _) ?_
  refine benchSlice_like benchAction _ _ benchAction_like _ _ _ ?_ fun e => rfl
  refine benchSlice_like benchAction _ _ benchAction_like _ _ _ ?_ fun e => rfl
  refine benchSlice_like benchExtension _ _ benchExtension_like _ _ _ ?_ fun e => rfl
  exact .none

/-- Same bytes, or the same panic. -/
theorem C42_encode (tx : Transaction) : (encode benchTransaction tx.bench).run = tx.marshal.run := (benchTransaction_like tx).1
theorem C42_encode_action (a : Action) : (encode benchAction a.bench).run = a.marshal.run := (benchAction_like a).1

/-! ## Decoding -/

theorem name_sim (old : UInt64) : Dec.Sim Eq readUint64 (Name.unmarshal old) := by
  intro fin bs a r h
  exact ⟨a, rfl, by rw [Name.unmarshal, Dec.runE_bind, h]; rfl⟩

theorem benchPerm_sim (z : benchPerm.Val) (z' : PermissionLevel) : Dec.Sim (fun v p => v = p.bench) (decode benchPerm z) z'.unmarshal := by
  obtain ⟨z1, z2, z3⟩ : UInt64 × UInt64 × Unit := z
  change Dec.Sim _ (decodeFields chainDecoder (benchField (.basic .u64) (benchField (.basic .u64) .nil)) none (z1, z2, z3)) _
  refine benchField_sim (t := .basic .u64) (x := z1) (R := Eq) (name_sim _) fun a _ h => ?_
  cases h
  refine benchField_sim (t := .basic .u64) (x := z2) (R := Eq) (name_sim _) fun a _ h => ?_
  cases h
  exact .pure _ _ rfl

theorem data_sim (old : Bytes) (z : Option Bytes) : Dec.Sim (fun v d => v = some d) (decodeBytes z) (BytesT.unmarshal old) := by
  refine (Dec.Sim.refl readVaruint).bind (fun a e => Dec.not_some _ _) fun a _ h => ?_
  cases h
  intro fin bs v r hv
  obtain ⟨⟨n, b, e⟩, r', h1, h2⟩ := Dec.runE_bind_ok (show (readBytes (goInt a) >>= _).runE fin bs = _ from hv)
  cases h2
  by_cases hl : goInt a < 0
  · unfold readBytes at h1
    rw [if_pos hl] at h1
    cases h1
  · refine ⟨b, if_neg hl, ?_⟩
    show (readBytes (goInt a) >>= _).runE fin bs = _
    rw [Dec.runE_bind, h1]
    rfl

theorem map_of_forall2 {α β : Type} {m : β → α} {xs : List α} {ys : List β} (h : Forall2 (fun a b => a = m b) xs ys) : xs = ys.map m := by
  induction h with
  | nil => rfl
  | cons h _ ih => rw [List.map_cons, ← h, ← ih]

theorem decEach_length {α : Type} {dec : α → Dec (α × Option Err)} {xs ys : List α} {fin : Err} {bs r : Bytes} {e : Option Err}
    (h : (decEach dec xs).runE fin bs = .ok (ys, e) r) : ys.length = xs.length := by
  induction xs generalizing ys bs e r with
  | nil => cases h; rfl
  | cons x xs ih =>
    obtain ⟨⟨y, e'⟩, r', h1, h2⟩ := Dec.runE_bind_ok (show (dec x >>= _).runE fin bs = _ from h)
    cases e' with
    | some e' => cases h2; rfl
    | none =>
      obtain ⟨⟨zs, e'⟩, r'', h3, h4⟩ := Dec.runE_bind_ok (show (decEach dec xs >>= _).runE fin r' = _ from h2)
      cases h4
      rw [List.length_cons, List.length_cons, ih h3]

theorem sliceOf_pos {α : Type} {xs : List α} (h : 0 < xs.length) : sliceOf xs = some xs := if_neg (by rintro rfl; exact Nat.lt_irrefl 0 h)

theorem goInt_zero {l : UInt64} (h : goInt l = 0) : l = 0 := by
  have := goInt_nonneg l (by omega)
  exact UInt64.toNat_inj.1 (by simp only [UInt64.toNat_ofNat]; omega)

theorem goInt_toNat {l : UInt64} (h : ¬ goInt l < 0) : (goInt l).toNat = l.toNat := by
  have := goInt_nonneg l (by omega)
  omega

/-- A decoded slice against a loop that makes the same number of elements, for lengths that are not negative. -/
theorem decodeSlice_sim {α β : Type} {m : β → α} {z : α} {z' : β} {size : Nat} {dec : α → Dec (α × Option Err)} {dec' : β → Dec (β × Option Err)}
    {g : UInt64 × Option Err → Dec (List β × Option Err)} (h : Dec.Sim (fun a b => a = m b) (dec z) (dec' z'))
    (hg : ∀ l, ¬ goInt l < 0 → ¬ l.toNat * size > maxAlloc → Dec.Sim (fun v ys => v = ys) (decEach dec' (List.replicate l.toNat z')) (g (l, none))) :
    Dec.Sim (fun v ys => v = sliceOf (ys.map m)) (decodeSlice z size dec none) (readVaruint >>= g) := by
  refine (Dec.Sim.refl readVaruint).bind (fun a e => Dec.not_some _ _) fun l _ h => ?_
  cases h
  intro fin bs v r hv
  replace hv : (if ((0 : Nat) : Int) ≠ goInt l then makeSlice z size l fun xs => do
        let (ys, err) ← decEach dec xs
        pure (some ys, err)
    else pure ((none : Option (List α)), none)).runE fin bs = _ := hv
  split at hv
  · rename_i h0
    unfold makeSlice at hv
    split at hv
    · cases hv
    · rename_i h1
      split at hv
      · cases hv
      · rename_i h2
        obtain ⟨⟨ys, e⟩, r', h3, h4⟩ := Dec.runE_bind_ok hv
        cases h4
        obtain ⟨ws, h5, h6⟩ := decEach_sim h l.toNat fin bs ys _ h3
        obtain ⟨ws', rfl, h7⟩ := hg l h1 h2 fin bs ws _ h6
        refine ⟨ws, ?_, h7⟩
        show some ys = _
        rw [sliceOf_pos, map_of_forall2 h5]
        rw [List.length_map, ← forall2_length _ _ _ h5, decEach_length h3, List.length_replicate]
        have := goInt_toNat h1
        omega
  · rename_i h0
    have h0 : l = 0 := goInt_zero (by simp only [ne_eq, Decidable.not_not] at h0; omega)
    subst h0
    cases hv
    obtain ⟨ws, rfl, h7⟩ := hg 0 (by decide) (by simp) fin bs [] bs rfl
    exact ⟨[], rfl, h7⟩

theorem slice_sim {α β : Type} {m : β → α} {z : α} {z' : β} {size : Nat} {dec : α → Dec (α × Option Err)} {dec' : β → Dec (β × Option Err)} (old : List β)
    (h : Dec.Sim (fun a b => a = m b) (dec z) (dec' z')) :
    Dec.Sim (fun v ys => v = sliceOf (ys.map m)) (decodeSlice z size dec none) (decSlice z' size dec' old) := by
  refine decodeSlice_sim h fun l h1 h2 => ?_
  change Dec.Sim _ _ (makeSlice z' size l fun xs => decEach dec' xs)
  unfold makeSlice
  rw [if_neg h1, if_neg h2]
  exact Dec.Sim.refl _

theorem authLoop_sim (n : Nat) (acc : List PermissionLevel) :
    Dec.Sim (fun v ys => ys = acc ++ v) (decEach PermissionLevel.unmarshal (List.replicate n .zero)) (authLoop n acc) := by
  induction n generalizing acc with
  | zero => exact .pure _ _ (by simp)
  | succ n ih =>
    rw [List.replicate_succ]
    refine (Dec.Sim.refl _).bind (fun a e => Dec.not_some _ _) fun p _ h => ?_
    cases h
    exact (ih (acc ++ [p])).map (fun ys => p :: ys) fun c b h => by rw [h]; simp

/-- The part of Action.UnmarshalABI that reads the authorizations -/
def authDec : Dec (List PermissionLevel × Option Err) := do
  let (l, err) ← readVaruint
  match err with
  | some e => pure ([], some e)
  | none => authLoop (goInt l).toNat []

theorem authDec_sim : Dec.Sim (fun v ys => v = sliceOf (ys.map PermissionLevel.bench)) (decodeSlice benchPerm.zero benchPerm.size (decode benchPerm) none) authDec := by
  refine decodeSlice_sim (benchPerm_sim _ .zero) fun l h1 h2 => ?_
  change Dec.Sim _ _ (authLoop (goInt l).toNat [])
  rw [goInt_toNat h1]
  intro fin bs a r h
  obtain ⟨b, hb, h'⟩ := authLoop_sim l.toNat [] fin bs a r h
  exact ⟨b, hb.symm, h'⟩

theorem authDec_eq (a b : UInt64) : (do
      let (l, err) ← readVaruint
      match err with
      | some e => pure ((⟨a, b, [], []⟩ : Action), some e)
      | none =>
        let (auth, err) ← authLoop (goInt l).toNat []
        match err with
        | some e => pure ((⟨a, b, auth, []⟩ : Action), some e)
        | none =>
          let (data, err) ← BytesT.unmarshal []
          pure ((⟨a, b, auth, data⟩ : Action), err)) = (do
      let (auth, err) ← authDec
      match err with
      | some e => pure ((⟨a, b, auth, []⟩ : Action), some e)
      | none =>
        let (data, err) ← BytesT.unmarshal []
        pure ((⟨a, b, auth, data⟩ : Action), err)) := by
  unfold authDec
  rw [Dec.bind_assoc']
  congr 1
  funext ⟨l, e⟩
  cases e <;> rfl

theorem benchAction_sim : Dec.Sim (fun v p => v = p.bench) (decode benchAction benchAction.zero) Action.zero.unmarshal := by
  change Dec.Sim _ (decodeFields chainDecoder (benchField (.basic .u64) (benchField (.basic .u64) (benchField (.slice benchPerm) (benchField .bytes .nil)))) none
    ((0 : UInt64), (0 : UInt64), (none : Option (List benchPerm.Val)), (none : Option Bytes), ())) _
  refine benchField_sim (t := .basic .u64) (x := (0 : UInt64)) (R := Eq) (name_sim _) fun a _ h => ?_
  cases h
  refine benchField_sim (t := .basic .u64) (x := (0 : UInt64)) (R := Eq) (name_sim _) fun b _ h => ?_
  cases h
  refine Dec.Sim.of_eq (authDec_eq _ _) ?_
  refine benchField_sim (t := .slice benchPerm) (x := (none : Option (List benchPerm.Val))) authDec_sim fun v ys h => ?_
  subst h
  refine benchField_sim (t := .bytes) (x := (none : Option Bytes)) (data_sim _ _) fun v d h => ?_
  subst h
  exact .pure _ _ rfl

theorem benchExtension_sim : Dec.Sim (fun v p => v = p.bench) (decode benchExtension benchExtension.zero) TxExtension.zero.unmarshal := by
  change Dec.Sim _ (decodeFields chainDecoder (benchField (.basic .u16) (benchField .bytes .nil)) none ((0 : UInt16), (none : Option Bytes), ())) _
  refine benchField_sim (t := .basic .u16) (x := (0 : UInt16)) (R := Eq) (Dec.Sim.refl _) fun a _ h => ?_
  cases h
  refine benchField_sim (t := .bytes) (x := (none : Option Bytes)) (data_sim _ _) fun v d h => ?_
  subst h
  exact .pure _ _ rfl

theorem timePointSec_sim (old : UInt32) : Dec.Sim Eq readUint32 (TimePointSec.unmarshal old) := by
  intro fin bs a r h
  exact ⟨a, rfl, by rw [TimePointSec.unmarshal, Dec.runE_bind, h]; rfl⟩

theorem benchHeader_sim : Dec.Sim (fun v p => v = p.bench) (decode benchHeader benchHeader.zero) TxHeader.zero.unmarshal := by
  change Dec.Sim _ (decodeFields chainDecoder (benchField (.basic .u32) <| benchField (.basic .u16) <| benchField (.basic .u32) <| benchField (.basic .uint) <|
    benchField (.basic .u8) <| benchField (.basic .uint) .nil) none ((0 : UInt32), (0 : UInt16), (0 : UInt32), (0 : UInt64), (0 : UInt8), (0 : UInt64), ())) _
  refine benchField_sim (t := .basic .u32) (x := (0 : UInt32)) (R := Eq) (q := TimePointSec.unmarshal 0) ?_ fun a _ h => ?_
  · exact timePointSec_sim 0
  cases h
  refine benchField_sim (t := .basic .u16) (x := (0 : UInt16)) (R := Eq) (Dec.Sim.refl _) fun a _ h => ?_
  cases h
  refine benchField_sim (t := .basic .u32) (x := (0 : UInt32)) (R := Eq) (Dec.Sim.refl _) fun a _ h => ?_
  cases h
  refine benchField_sim (t := .basic .uint) (x := (0 : UInt64)) (R := Eq) (Dec.Sim.refl _) fun a _ h => ?_
  cases h
  refine benchField_sim (t := .basic .u8) (x := (0 : UInt8)) (R := Eq) (Dec.Sim.refl _) fun a _ h => ?_
  cases h
  refine benchField_sim (t := .basic .uint) (x := (0 : UInt64)) (R := Eq) (Dec.Sim.refl _) fun a _ h => ?_
  cases h
  exact .pure _ _ rfl

/-- A transaction that decodes by reflection decodes to the same data through UnmarshalABI. -/
theorem C42_decode_partial (fin : Err) (bs r : Bytes) (v : benchTransaction.Val) (h : (decode benchTransaction benchTransaction.zero).runE fin bs = .ok (v, none) r) :
    ∃ tx : Transaction, v = tx.bench ∧ Transaction.zero.unmarshal.runE fin bs = .ok (tx, none) r := by
  have : Dec.Sim (fun v p => v = p.bench) (decode benchTransaction benchTransaction.zero) Transaction.zero.unmarshal := by
    change Dec.Sim _ (decodeFields chainDecoder (benchField benchHeader <| benchField (.slice benchAction) <| benchField (.slice benchAction) <|
      benchField (.slice benchExtension) .nil) none (benchHeader.zero, (none : Option (List benchAction.Val)), (none : Option (List benchAction.Val)), (none : Option (List benchExtension.Val)), ())) _
    refine benchField_sim (t := benchHeader) (x := benchHeader.zero) benchHeader_sim fun v ys h => ?_
    subst h
    refine benchField_sim (t := .slice benchAction) (x := (none : Option (List benchAction.Val))) (slice_sim _ benchAction_sim) fun v ys h => ?_
    subst h
    refine benchField_sim (t := .slice benchAction) (x := (none : Option (List benchAction.Val))) (slice_sim _ benchAction_sim) fun v ys h => ?_
    subst h
    refine benchField_sim (t := .slice benchExtension) (x := (none : Option (List benchExtension.Val))) (slice_sim _ benchExtension_sim) fun v ys h => ?_
    subst h
    exact .pure _ _ rfl
  exact this fin bs v r h

/-! ### The other direction -/

theorem name_back (old : UInt64) : Dec.Back Eq readUint64 (Name.unmarshal old) := by
  intro fin bs a r h
  obtain ⟨⟨v, e⟩, r', h1, h2⟩ := Dec.runE_bind_ok (show (readUint64 >>= _).runE fin bs = _ from h)
  cases e <;> cases h2
  exact .inl ⟨a, rfl, h1⟩

/-- After a failed read nothing is left. -/
theorem name_failed {old : UInt64} {fin : Err} {bs r : Bytes} {x : UInt64} {e : Err} (h : (Name.unmarshal old).runE fin bs = .ok (x, some e) r) : r = [] := by
  by_cases hb : 8 ≤ bs.length
  · obtain ⟨v, hv⟩ : ∃ v, (Name.unmarshal old).runE fin bs = .ok (v, none) (bs.drop 8) := by
      simp only [Name.unmarshal, readUint64, readBytes, Dec.runE_bind]
      simp [Dec.runE, hb, maxAlloc]
    rw [hv] at h; cases h
  · have : (Name.unmarshal old).runE fin bs = .ok (old, some (shortErr fin bs.length)) [] := by
      simp only [Name.unmarshal, readUint64, readBytes, Dec.runE_bind]
      simp [Dec.runE, hb, maxAlloc]
    rw [this] at h; cases h; rfl

theorem benchPerm_back (z : benchPerm.Val) (z' : PermissionLevel) : Dec.Back (fun v p => v = p.bench) (decode benchPerm z) z'.unmarshal := by
  obtain ⟨z1, z2, z3⟩ : UInt64 × UInt64 × Unit := z
  change Dec.Back _ (decodeFields chainDecoder (benchField (.basic .u64) (benchField (.basic .u64) .nil)) none (z1, z2, z3)) _
  refine benchField_back (t := .basic .u64) (x := z1) (R := Eq) (name_back _) ?_ fun a _ h => ?_
  · intro b e fin bs r d r' h h'
    rw [name_failed h] at h'
    cases h'
  cases h
  refine benchField_back (t := .basic .u64) (x := z2) (R := Eq) (name_back _) (fun b e fin bs r d r' _ => Dec.not_some _ _ _ _ _ _) fun a _ h => ?_
  cases h
  exact .pure _ _ rfl

theorem data_back (old : Bytes) (z : Option Bytes) : Dec.Back (fun v d => v = some d) (decodeBytes z) (BytesT.unmarshal old) := by
  refine (Dec.Back.refl readVaruint).bind (fun b e fin bs r d r' _ => Dec.not_some _ _ _ _ _ _) fun a _ h => ?_
  cases h
  intro fin bs v r hv
  obtain ⟨⟨n, b, e⟩, r', h1, h2⟩ := Dec.runE_bind_ok (show (readBytes (goInt a) >>= _).runE fin bs = _ from hv)
  cases e <;> cases h2
  by_cases hl : goInt a < 0
  · unfold readBytes at h1
    rw [if_pos hl] at h1
    cases h1
  · refine .inl ⟨some v, rfl, ?_⟩
    show (readBytes (goInt a) >>= _).runE fin bs = _
    rw [Dec.runE_bind, h1]
    show Out.ok ((if goInt a < 0 then none else some v), none) r = _
    rw [if_neg hl]

theorem decodeSlice_back {α β : Type} {m : β → α} {z : α} {z' : β} {size : Nat} {dec : α → Dec (α × Option Err)} {dec' : β → Dec (β × Option Err)}
    {g : UInt64 × Option Err → Dec (List β × Option Err)} (h : Dec.Back (fun a b => a = m b) (dec z) (dec' z'))
    (he : ∀ b e fin bs r d r', readVaruint.runE fin bs = .ok (b, some e) r → (g (b, some e)).runE fin r ≠ .ok (d, none) r')
    (hg : ∀ l, ¬ goInt l < 0 → ¬ l.toNat * size > maxAlloc → ∀ fin bs ys r, (g (l, none)).runE fin bs = .ok (ys, none) r →
      (decEach dec' (List.replicate l.toNat z')).runE fin bs = .ok (ys, none) r) :
    Dec.Back (fun v ys => v = sliceOf (ys.map m)) (decodeSlice z size dec none) (readVaruint >>= g) := by
  refine (Dec.Back.refl readVaruint).bind he fun l _ h => ?_
  cases h
  refine Dec.Back.of_eqL (p' := if ((0 : Nat) : Int) ≠ goInt l then makeSlice z size l fun xs => do
        let (ys, err) ← decEach dec xs
        pure (some ys, err)
    else pure ((none : Option (List α)), none)) rfl ?_
  intro fin bs v r hv
  by_cases h0 : ((0 : Nat) : Int) ≠ goInt l
  · rw [if_pos h0]
    unfold makeSlice
    by_cases h1 : goInt l < 0
    · rw [if_pos h1]
      exact .inr ⟨_, rfl⟩
    rw [if_neg h1]
    by_cases h2 : l.toNat * size > maxAlloc
    · rw [if_pos h2]
      exact .inr ⟨_, rfl⟩
    rw [if_neg h2]
    rcases decEach_back h l.toNat fin bs v r (hg l h1 h2 fin bs v r hv) with ⟨ys, h4, h5⟩ | ⟨w, h4⟩
    · refine .inl ⟨some ys, ?_, by rw [Dec.runE_bind, h5]; rfl⟩
      show some ys = _
      rw [sliceOf_pos, map_of_forall2 h4]
      rw [List.length_map, ← forall2_length _ _ _ h4, decEach_length h5, List.length_replicate]
      have := goInt_toNat h1
      omega
    · exact .inr ⟨w, by rw [Dec.runE_bind, h4]; rfl⟩
  · rw [if_neg h0]
    have h0 : l = 0 := goInt_zero (by simp only [ne_eq, Decidable.not_not] at h0; omega)
    subst h0
    have h3 := hg 0 (by decide) (by simp) fin bs v r hv
    cases h3
    exact .inl ⟨none, rfl, rfl⟩

theorem slice_back {α β : Type} {m : β → α} {z : α} {z' : β} {size : Nat} {dec : α → Dec (α × Option Err)} {dec' : β → Dec (β × Option Err)} (old : List β)
    (h : Dec.Back (fun a b => a = m b) (dec z) (dec' z')) :
    Dec.Back (fun v ys => v = sliceOf (ys.map m)) (decodeSlice z size dec none) (decSlice z' size dec' old) := by
  refine decodeSlice_back h (fun b e fin bs r d r' _ => Dec.not_some _ _ _ _ _ _) fun l h1 h2 fin bs ys r hv => ?_
  replace hv : (makeSlice z' size l fun xs => decEach dec' xs).runE fin bs = _ := hv
  unfold makeSlice at hv
  rwa [if_neg h1, if_neg h2] at hv

theorem authLoop_back (n : Nat) (acc ys : List PermissionLevel) (fin : Err) (bs r : Bytes) (h : (authLoop n acc).runE fin bs = .ok (ys, none) r) :
    ∃ zs, ys = acc ++ zs ∧ (decEach PermissionLevel.unmarshal (List.replicate n .zero)).runE fin bs = .ok (zs, none) r := by
  induction n generalizing acc bs with
  | zero => cases h; exact ⟨[], by simp, rfl⟩
  | succ n ih =>
    obtain ⟨⟨p, e⟩, r', h1, h2⟩ := Dec.runE_bind_ok (show (PermissionLevel.unmarshal .zero >>= _).runE fin bs = _ from h)
    cases e with
    | some e => cases h2
    | none =>
      obtain ⟨zs, rfl, h3⟩ := ih _ _ h2
      refine ⟨p :: zs, by simp, ?_⟩
      rw [List.replicate_succ, decEach, Dec.runE_bind, h1]
      show (decEach _ _ >>= _).runE fin r' = _
      rw [Dec.runE_bind, h3]
      rfl

theorem authDec_back : Dec.Back (fun v ys => v = sliceOf (ys.map PermissionLevel.bench)) (decodeSlice benchPerm.zero benchPerm.size (decode benchPerm) none) authDec := by
  refine decodeSlice_back (benchPerm_back _ .zero) (fun b e fin bs r d r' _ => Dec.not_some _ _ _ _ _ _) fun l h1 h2 fin bs ys r hv => ?_
  obtain ⟨zs, h3, h4⟩ := authLoop_back _ _ _ _ _ _ (show (authLoop (goInt l).toNat []).runE fin bs = _ from hv)
  rw [List.nil_append] at h3
  rw [← goInt_toNat h1, h3]
  exact h4

theorem benchAction_back : Dec.Back (fun v p => v = p.bench) (decode benchAction benchAction.zero) Action.zero.unmarshal := by
  change Dec.Back _ (decodeFields chainDecoder (benchField (.basic .u64) (benchField (.basic .u64) (benchField (.slice benchPerm) (benchField .bytes .nil)))) none
    ((0 : UInt64), (0 : UInt64), (none : Option (List benchPerm.Val)), (none : Option Bytes), ())) _
  refine benchField_back (t := .basic .u64) (x := (0 : UInt64)) (R := Eq) (name_back _) ?_ fun a _ h => ?_
  · intro b e fin bs r d r' h h'
    rw [name_failed h] at h'
    cases h'
  cases h
  refine benchField_back (t := .basic .u64) (x := (0 : UInt64)) (R := Eq) (name_back _) ?_ fun b _ h => ?_
  · intro b e fin bs r d r' h h'
    rw [name_failed h] at h'
    cases h'
  cases h
  refine Dec.Back.of_eq (authDec_eq _ _) ?_
  refine benchField_back (t := .slice benchPerm) (x := (none : Option (List benchPerm.Val))) authDec_back (fun b e fin bs r d r' _ => Dec.not_some _ _ _ _ _ _) fun v ys h => ?_
  subst h
  refine benchField_back (t := .bytes) (x := (none : Option Bytes)) (data_back _ _) (fun b e fin bs r d r' _ => Dec.not_some _ _ _ _ _ _) fun v d h => ?_
  subst h
  exact .pure _ _ rfl

theorem benchExtension_back : Dec.Back (fun v p => v = p.bench) (decode benchExtension benchExtension.zero) TxExtension.zero.unmarshal := by
  change Dec.Back _ (decodeFields chainDecoder (benchField (.basic .u16) (benchField .bytes .nil)) none ((0 : UInt16), (none : Option Bytes), ())) _
  refine benchField_back (t := .basic .u16) (x := (0 : UInt16)) (R := Eq) (Dec.Back.refl _) (fun b e fin bs r d r' _ => Dec.not_some _ _ _ _ _ _) fun a _ h => ?_
  cases h
  refine benchField_back (t := .bytes) (x := (none : Option Bytes)) (data_back _ _) (fun b e fin bs r d r' _ => Dec.not_some _ _ _ _ _ _) fun v d h => ?_
  subst h
  exact .pure _ _ rfl

theorem timePointSec_back (old : UInt32) : Dec.Back Eq readUint32 (TimePointSec.unmarshal old) := by
  intro fin bs a r h
  obtain ⟨⟨v, e⟩, r', h1, h2⟩ := Dec.runE_bind_ok (show (readUint32 >>= _).runE fin bs = _ from h)
  cases e <;> cases h2
  exact .inl ⟨a, rfl, h1⟩

theorem benchHeader_back : Dec.Back (fun v p => v = p.bench) (decode benchHeader benchHeader.zero) TxHeader.zero.unmarshal := by
  change Dec.Back _ (decodeFields chainDecoder (benchField (.basic .u32) <| benchField (.basic .u16) <| benchField (.basic .u32) <| benchField (.basic .uint) <|
    benchField (.basic .u8) <| benchField (.basic .uint) .nil) none ((0 : UInt32), (0 : UInt16), (0 : UInt32), (0 : UInt64), (0 : UInt8), (0 : UInt64), ())) _
  refine benchField_back (t := .basic .u32) (x := (0 : UInt32)) (R := Eq) (timePointSec_back 0) (fun b e fin bs r d r' _ => Dec.not_some _ _ _ _ _ _) fun a _ h => ?_
  cases h
  refine benchField_back (t := .basic .u16) (x := (0 : UInt16)) (R := Eq) (Dec.Back.refl _) (fun b e fin bs r d r' _ => Dec.not_some _ _ _ _ _ _) fun a _ h => ?_
  cases h
  refine benchField_back (t := .basic .u32) (x := (0 : UInt32)) (R := Eq) (Dec.Back.refl _) (fun b e fin bs r d r' _ => Dec.not_some _ _ _ _ _ _) fun a _ h => ?_
  cases h
  refine benchField_back (t := .basic .uint) (x := (0 : UInt64)) (R := Eq) (Dec.Back.refl _) (fun b e fin bs r d r' _ => Dec.not_some _ _ _ _ _ _) fun a _ h => ?_
  cases h
  refine benchField_back (t := .basic .u8) (x := (0 : UInt8)) (R := Eq) (Dec.Back.refl _) (fun b e fin bs r d r' _ => Dec.not_some _ _ _ _ _ _) fun a _ h => ?_
  cases h
  refine benchField_back (t := .basic .uint) (x := (0 : UInt64)) (R := Eq) (Dec.Back.refl _) (fun b e fin bs r d r' _ => Dec.not_some _ _ _ _ _ _) fun a _ h => ?_
  cases h
  exact .pure _ _ rfl

/-- A transaction that decodes through UnmarshalABI decodes to the same data by reflection, unless that panics. -/
theorem C42_decode_back_partial (fin : Err) (bs r : Bytes) (tx : Transaction) (h : Transaction.zero.unmarshal.runE fin bs = .ok (tx, none) r) :
    (decode benchTransaction benchTransaction.zero).runE fin bs = .ok (tx.bench, none) r ∨ ∃ w, (decode benchTransaction benchTransaction.zero).runE fin bs = .panic w := by
  have : Dec.Back (fun v p => v = p.bench) (decode benchTransaction benchTransaction.zero) Transaction.zero.unmarshal := by
    change Dec.Back _ (decodeFields chainDecoder (benchField benchHeader <| benchField (.slice benchAction) <| benchField (.slice benchAction) <|
      benchField (.slice benchExtension) .nil) none (benchHeader.zero, (none : Option (List benchAction.Val)), (none : Option (List benchAction.Val)), (none : Option (List benchExtension.Val)), ())) _
    refine benchField_back (t := benchHeader) (x := benchHeader.zero) benchHeader_back (fun b e fin bs r d r' _ => Dec.not_some _ _ _ _ _ _) fun v ys h => ?_
    subst h
    refine benchField_back (t := .slice benchAction) (x := (none : Option (List benchAction.Val))) (slice_back _ benchAction_back) (fun b e fin bs r d r' _ => Dec.not_some _ _ _ _ _ _) fun v ys h => ?_
    subst h
    refine benchField_back (t := .slice benchAction) (x := (none : Option (List benchAction.Val))) (slice_back _ benchAction_back) (fun b e fin bs r d r' _ => Dec.not_some _ _ _ _ _ _) fun v ys h => ?_
    subst h
    refine benchField_back (t := .slice benchExtension) (x := (none : Option (List benchExtension.Val))) (slice_back _ benchExtension_back) (fun b e fin bs r d r' _ => Dec.not_some _ _ _ _ _ _) fun v ys h => ?_
    subst h
    exact .pure _ _ rfl
  rcases this fin bs tx r h with ⟨a, rfl, h⟩ | h
  · exact .inl h
  · exact .inr h

/-- An authorization count of 2^63: no authorizations for UnmarshalABI, a panic by reflection. -/
theorem C42_violated : ∃ (bs : Bytes) (tx : Transaction) (w : String), Transaction.zero.unmarshal.run bs = .ok (tx, none) [] ∧
    (decode benchTransaction benchTransaction.zero).run bs = .panic w :=
  ⟨[0, 0, 0, 0, 0, 0, 0, 0, 0, 0, 0, 0, 0, 0, 1, 0, 0, 0, 0, 0, 0, 0, 0, 0, 0, 0, 0, 0, 0, 0, 0, 128, 128, 128, 128, 128, 128, 128, 128, 128, 1, 0, 0],
    ⟨⟨0, 0, 0, 0, 0, 0⟩, [], [⟨0, 0, [], []⟩], []⟩, "makeslice: len out of range", by decide +kernel, by decide +kernel⟩

example : (decode benchTransaction benchTransaction.zero).run (sampleTx.bytes ++ [42]) = .ok (sampleTx.bench, none) [42] := by decide +kernel
example : (encode benchTransaction sampleTx.bench).Writes sampleTx.bytes := by decide +kernel

end Verif
