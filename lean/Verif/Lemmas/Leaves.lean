import Verif.Spec.Leaves
import Verif.Lemmas.FailsAll
import Verif.Lemmas.ReflectOverwrite
/-! What a failed `Decode` leaves in the destination. -/
namespace Verif
open Dec

/-- After an error. -/
def Dec.Ruins {α : Type} (p : Dec (α × Option Err)) (P : Err → Bytes → α → Prop) : Prop := ∀ fin s v e r, p.runE fin s = .ok (v, some e) r → P fin s v

theorem ruins_run {α β : Type} {p : Dec α} {f : α → Dec β} {fin : Err} {s r : Bytes} {x : β} (h : (p >>= f).runE fin s = .ok x r) :
    ∃ a m, p.runE fin s = .ok a m ∧ (f a).runE fin m = .ok x r := by
  rw [Dec.runE_bind] at h
  cases hp : p.runE fin s with
  | ok a m => rw [hp] at h; exact ⟨a, m, rfl, h⟩
  | panic w => rw [hp] at h; cases h
  | diverge => rw [hp] at h; cases h

theorem Dec.Ruins.mono {α : Type} {p : Dec (α × Option Err)} {P Q : Err → Bytes → α → Prop} (h : p.Ruins P) (hq : ∀ fin s v, P fin s v → Q fin s v) : p.Ruins Q :=
  fun fin s v e r hr => hq fin s v (h fin s v e r hr)

theorem Dec.Ruins.of_eq {α : Type} {p q : Dec (α × Option Err)} {P : Err → Bytes → α → Prop} (h : p = q) (hq : q.Ruins P) : p.Ruins P := h ▸ hq

theorem ruins_fail {α : Type} {P : Err → Bytes → α → Prop} (a : α) (e : Option Err) (h : ∀ fin s, P fin s a) : (pure (a, e) : Dec (α × Option Err)).Ruins P := by
  intro fin s v e r hr
  cases hr
  exact h fin s

theorem ruins_pure {α : Type} {P : Err → Bytes → α → Prop} (a : α) : (pure (a, none) : Dec (α × Option Err)).Ruins P := by
  intro fin s v e r hr
  cases hr

theorem ruins_panic {α : Type} {P : Err → Bytes → α → Prop} (w : String) : (.panic w : Dec (α × Option Err)).Ruins P := by
  intro fin s v e r hr
  cases hr

theorem ruins_diverge {α : Type} {P : Err → Bytes → α → Prop} : (.diverge : Dec (α × Option Err)).Ruins P := by
  intro fin s v e r hr
  cases hr

/-- Whatever is read. -/
theorem ruins_step {α β : Type} {P : α → Prop} {p : Dec β} {f : β → Dec (α × Option Err)} (h : ∀ b, (f b).Ruins fun _ _ => P) : (p >>= f).Ruins fun _ _ => P := by
  intro fin s v e r hr
  obtain ⟨b, m, _, h2⟩ := ruins_run hr
  exact h b fin m v e r h2

/-- The function of the decoder does not know the type. -/
theorem via_ruins {t : Ty} (ht : t.isChain = false) (mode : Mode) (old : t.Val) {fast slow : t.Val → Dec (t.Val × Option Err)} {P Q : Err → Bytes → t.Val → Prop}
    (hf : (fast old).Ruins P) (hs : (slow old).Ruins Q) :
    (viaDecFn chainDecoder t mode old fast slow).Ruins fun fin s v => if mode = .decode ∨ mode = .elem then P fin s v else if mode = .value then Q fin s v else v = old := by
  cases mode with
  | value => exact hs.mono fun fin s v h => by simpa using h
  | variant i => exact ruins_fail old _ fun _ _ => by simp
  | member => exact ruins_fail old _ fun _ _ => by simp
  | decode => unfold viaDecFn; rw [chainDecoder_else t ht]; exact hf.mono fun fin s v h => by simpa using h
  | elem => unfold viaDecFn; rw [chainDecoder_else t ht]; exact hf.mono fun fin s v h => by simpa using h

theorem via_ruins' {t : Ty} (ht : t.isChain = false) (mode : Mode) (old : t.Val) {f : t.Val → Dec (t.Val × Option Err)} {P : Err → Bytes → t.Val → Prop} (hf : (f old).Ruins P) :
    (viaDecFn chainDecoder t mode old f f).Ruins fun fin s v => if mode = .decode ∨ mode = .elem ∨ mode = .value then P fin s v else v = old :=
  (via_ruins ht mode old hf hf).mono fun fin s v h => by cases mode <;> simpa using h

/-! ### Numbers and bytes -/

theorem goInt_of_lt {l : UInt64} (h : l.toNat < 2 ^ 63) : goInt l = l.toNat := (goInt_eq l l.toNat).2 ⟨rfl, h⟩

theorem goInt_of_ge {l : UInt64} (h : 2 ^ 63 ≤ l.toNat) : goInt l < 0 := by
  by_contra hc
  have := goInt_nonneg l (by omega)
  have := (goInt_eq l l.toNat).1 this.symm
  omega

theorem readByte_ruins : readByte.Ruins fun _ s v => s = [] ∧ v = 0 := by
  intro fin s v e r h
  obtain ⟨⟨k, b, o⟩, m, h1, h2⟩ := ruins_run h
  cases o with
  | none => cases h2
  | some e' =>
    cases h2
    cases s with
    | nil => exact ⟨rfl, rfl⟩
    | cons c s =>
      exfalso
      have := (readBytes_ok 1 fin (c :: s) [c] s 1).2 ⟨rfl, rfl, rfl, by simp [maxAlloc]⟩
      rw [h1] at this
      cases this

theorem basic_ruins (b : Basic) : b.read.Ruins fun _ _ v => v = b.zero := by
  cases b with
  | bool =>
    intro fin s v e r h
    obtain ⟨⟨b, o⟩, m, h1, h2⟩ := ruins_run h
    cases h2
    rw [(readByte_ruins fin s _ _ _ h1).2]
    rfl
  | string =>
    refine ruins_step fun x => ?_
    obtain ⟨l, _ | e⟩ := x
    · refine ruins_step fun x => ?_
      obtain ⟨k, b, _ | e⟩ := x
      · exact ruins_pure _
      · exact ruins_fail _ _ fun _ _ => rfl
    · exact ruins_fail _ _ fun _ _ => rfl
  | u16 | u32 | u64 =>
    refine ruins_step fun x => ?_
    obtain ⟨k, b, _ | e⟩ := x
    · exact ruins_pure _
    · exact ruins_fail _ _ fun _ _ => rfl
  | _ =>
    refine ruins_step fun x => ?_
    obtain ⟨b, _ | e⟩ := x
    · exact ruins_pure _
    · exact ruins_fail _ _ fun _ _ => rfl

theorem kind_ruins (b : Basic) (old : b.Val) : (b.readKind old).Ruins fun _ _ v => v = old := by
  cases b with
  | u64 | u32 | i64 | i32 =>
    refine ruins_step fun x => ?_
    obtain ⟨b, _ | e⟩ := x
    · exact ruins_pure _
    · exact ruins_fail _ _ fun _ _ => rfl
  | _ => exact ruins_fail _ _ fun _ _ => rfl

/-- Numbers of bytes that are not there. -/
theorem readBytes_ruins (n : Int) (fin : Err) (s b r : Bytes) (k : Nat) (e : Err) (h : (readBytes n).runE fin s = .ok (k, b, some e) r) :
    n < 0 ∧ b = [] ∨ 0 ≤ n ∧ s.length < n.toNat ∧ b = s ++ List.replicate (n.toNat - s.length) 0 := by
  unfold readBytes at h
  split at h
  · rename_i hn
    cases h
    exact .inl ⟨hn, rfl⟩
  · rename_i hn
    split at h
    · cases h
    · split at h
      · cases h
      · refine .inr ⟨by omega, ?_⟩
        by_cases hl : n.toNat ≤ s.length
        · simp only [Dec.runE, if_pos hl] at h
          cases h
        · rw [Dec.runE_read_short _ _ _ _ (by omega)] at h
          cases h
          exact ⟨by omega, rfl⟩

theorem decodeBytes_ruins (old : Option Bytes) : (decodeBytes old).Ruins fun _ s v => v = old ∨ ∃ n lb s', AnyLeb lb n ∧ s = lb ++ s' ∧
    (2 ^ 63 ≤ n ∧ v = none ∨ s'.length < n ∧ v = some (s' ++ List.replicate (n - s'.length) 0)) := by
  intro fin s v e r h
  obtain ⟨⟨l, o⟩, m, h1, h2⟩ := ruins_run h
  cases o with
  | some e => cases h2; exact .inl rfl
  | none =>
    obtain ⟨lb, rfl, hl⟩ := (readVaruint_exactly fin s l m).1 h1
    obtain ⟨⟨k, b, o⟩, m', h3, h4⟩ := ruins_run h2
    refine .inr ⟨l.toNat, lb, m, hl, rfl, ?_⟩
    cases h4
    rcases readBytes_ruins _ _ _ _ _ _ _ h3 with ⟨hn, rfl⟩ | ⟨hn, h5, rfl⟩
    · refine .inl ⟨?_, by rw [if_pos hn]⟩
      by_contra hc
      rw [goInt_of_lt (by omega)] at hn
      omega
    · refine .inr ?_
      have : l.toNat < 2 ^ 63 := by
        by_contra hc
        have := goInt_of_ge (l := l) (by omega)
        omega
      rw [goInt_of_lt this] at h5 hn ⊢
      exact ⟨by simpa using h5, by rw [if_neg (by omega)]; rfl⟩

/-! ### Elements -/

theorem each_ruins {α : Type} {G : Err → α → Bytes → Bytes → Prop} {L : Err → α → Bytes → α → Prop} {dec : α → Dec (α × Option Err)} (xs : List α)
    (hG : ∀ x ∈ xs, ∀ fin s y m, (dec x).runE fin s = .ok (y, none) m → G fin y s m) (hL : ∀ x ∈ xs, (dec x).Ruins fun fin s y => L fin x s y) :
    (decEach dec xs).Ruins fun fin s ys => LeavesAmong (G fin) (L fin) xs s ys := by
  induction xs with
  | nil => exact ruins_pure _
  | cons x xs ih =>
    intro fin s ys e r h
    obtain ⟨⟨y, o⟩, m, h1, h2⟩ := ruins_run h
    cases o with
    | some e' =>
      cases h2
      exact ⟨[], xs, [], x, y, s, rfl, rfl, rfl, .nil, hL x (by simp) fin s y _ _ h1⟩
    | none =>
      obtain ⟨⟨zs, o⟩, m', h3, h4⟩ := ruins_run h2
      cases h4
      obtain ⟨pre, post, done, x', y', m'', h5, h6, h7, h8, h9⟩ := ih (fun x hx => hG x (by simp [hx])) (fun x hx => hL x (by simp [hx])) fin m zs e _ h3
      exact ⟨x :: pre, post, y :: done, x', y', m'', by rw [h5]; rfl, by rw [h6]; rfl, by simp [h7], .cons (hG x (by simp) fin s y m h1) h8, h9⟩

theorem slice_ruins {α : Type} {G : Err → α → Bytes → Bytes → Prop} {L : Err → α → Bytes → α → Prop} (zero : α) (size : Nat) {dec : α → Dec (α × Option Err)} (old : Option (List α))
    (hG : ∀ x, x ∈ old.getD [] ∨ x = zero → ∀ fin s y m, (dec x).runE fin s = .ok (y, none) m → G fin y s m) (hL : ∀ x, x ∈ old.getD [] ∨ x = zero → (dec x).Ruins fun fin s y => L fin x s y) :
    (decodeSlice zero size dec old).Ruins fun fin s ys => LeavesSlice zero (G fin) (L fin) old s ys := by
  intro fin s v e r h
  obtain ⟨⟨l, o⟩, m, h1, h2⟩ := ruins_run h
  cases o with
  | some e => cases h2; exact .inl rfl
  | none =>
    obtain ⟨lb, rfl, hl⟩ := (readVaruint_exactly fin s l m).1 h1
    simp only at h2
    split at h2
    · rename_i hne
      unfold makeSlice at h2
      split at h2
      · cases h2
      · rename_i hneg
        split at h2
        · cases h2
        · obtain ⟨⟨ys, o⟩, m', h3, h4⟩ := ruins_run h2
          cases h4
          refine .inr ⟨l.toNat, lb, m, ys, hl, rfl, rfl, ?_⟩
          rw [if_neg]
          · exact each_ruins _ (fun x hx => hG x (.inr (List.eq_of_mem_replicate hx))) (fun x hx => hL x (.inr (List.eq_of_mem_replicate hx))) fin m ys e _ h3
          · intro hc
            apply hne
            have : l.toNat < 2 ^ 63 := by
              by_contra hc
              exact hneg (goInt_of_ge (by omega))
            rw [goInt_of_lt this, hc]
    · rename_i heq
      simp only [ne_eq, not_not] at heq
      obtain ⟨⟨ys, o⟩, m', h3, h4⟩ := ruins_run h2
      cases h4
      have h5 := each_ruins _ (fun x hx => hG x (.inl hx)) (fun x hx => hL x (.inl hx)) fin m ys e _ h3
      have : l.toNat < 2 ^ 63 := by
        by_contra hc
        have := goInt_of_ge (l := l) (by omega)
        omega
      rw [goInt_of_lt this] at heq
      cases old with
      | none =>
        obtain ⟨pre, post, done, x, y, m'', h6, _⟩ := h5
        simp at h6
      | some xs =>
        refine .inr ⟨l.toNat, lb, m, ys, hl, rfl, rfl, ?_⟩
        rw [if_pos (by simpa using heq)]
        exact h5

theorem mapLoop_ruins {α β : Type} [DecidableEq α] {dk : Dec (α × Option Err)} {dv : Dec (β × Option Err)} {K : Err → α → Bytes → Bytes → Prop} {V : Err → β → Bytes → Bytes → Prop}
    (hk : dk.Yields K) (hv : dv.Yields V) (n : Nat) (m : List (α × β)) :
    (mapLoop dk dv n m).Ruins fun fin s v => ∃ (ys : List (α × β)) (r : Bytes), ys.length < n ∧ InTurn (fun y s r => ∃ m, K fin y.1 s m ∧ V fin y.2 m r) ys s r ∧ v = stores ys m := by
  induction n generalizing m with
  | zero => exact ruins_pure _
  | succ n ih =>
    intro fin s v e r h
    obtain ⟨⟨k, o⟩, m1, h1, h2⟩ := ruins_run h
    cases o with
    | some e => cases h2; exact ⟨[], s, by simp, .nil, rfl⟩
    | none =>
      obtain ⟨⟨w, o⟩, m2, h3, h4⟩ := ruins_run h2
      cases o with
      | some e => cases h4; exact ⟨[], s, by simp, .nil, rfl⟩
      | none =>
        obtain ⟨ys, r', h5, h6, h7⟩ := ih _ fin m2 v e r h4
        exact ⟨(k, w) :: ys, r', by simp [h5], .cons ⟨m1, (hk fin s k m1).1 h1, (hv fin m1 w m2).1 h3⟩ h6, h7⟩

theorem map_ruins {α β : Type} [DecidableEq α] {dk : Dec (α × Option Err)} {dv : Dec (β × Option Err)} {K : Err → α → Bytes → Bytes → Prop} {V : Err → β → Bytes → Bytes → Prop}
    (hk : dk.Yields K) (hv : dv.Yields V) (old : Option (List (α × β))) :
    (decodeMap dk dv old).Ruins fun fin s v => v = old ∨ ∃ (ys xs : List (α × β)) (n : Nat) (lb s' r : Bytes),
      AnyCount lb n ∧ s = lb ++ s' ∧ ys.length < n ∧ InTurn (fun y s r => ∃ m, K fin y.1 s m ∧ V fin y.2 m r) ys s' r ∧ Gathers ys xs ∧ v = some xs := by
  intro fin s v e r h
  obtain ⟨⟨l, o⟩, m, h1, h2⟩ := ruins_run h
  cases o with
  | some e => cases h2; exact .inl rfl
  | none =>
    obtain ⟨lb, rfl, hl⟩ := (readVaruint_exactly fin s l m).1 h1
    obtain ⟨⟨xs, o⟩, m', h3, h4⟩ := ruins_run h2
    cases h4
    obtain ⟨ys, r', h5, h6, rfl⟩ := mapLoop_ruins hk hv _ _ fin m xs e _ h3
    refine .inr ⟨ys, _, (goInt l).toNat, lb, m, r', ?_, rfl, h5, h6, (stores_gathers ys).1, rfl⟩
    by_cases hc : l.toNat < 2 ^ 63
    · rw [goInt_of_lt hc]
      exact .inl ⟨by simpa using hl, by simpa using hc⟩
    · exfalso
      have := goInt_of_ge (l := l) (by omega)
      omega

/-! ### Types of package chain -/

theorem permission_ruins (old : PermissionLevel) : old.unmarshal.Ruins fun _ _ v => v.permission = old.permission := by
  refine ruins_step fun x => ?_
  intro fin s v e r h
  obtain ⟨⟨p, o⟩, m, h1, h2⟩ := ruins_run h
  cases h2
  have : (Name.unmarshal old.permission).Ruins fun _ _ v => v = old.permission := by
    refine ruins_step fun x => ?_
    obtain ⟨b, _ | e⟩ := x
    · exact ruins_pure _
    · exact ruins_fail _ _ fun _ _ => rfl
  exact this _ _ _ _ _ h1

theorem symbol_ruins (old : UInt64) : (Symbol.unmarshal old).Ruins fun _ _ v => v = old := by
  refine ruins_step fun x => ?_
  obtain ⟨b, _ | e⟩ := x
  · exact ruins_pure _
  · exact ruins_fail _ _ fun _ _ => rfl

theorem asset_ruins (old : Asset) : old.unmarshal.Ruins fun _ _ v => AssetLeaves old v := by
  refine ruins_step fun x => ?_
  obtain ⟨b, _ | e⟩ := x
  · intro fin s v e r h
    obtain ⟨⟨p, o⟩, m, h1, h2⟩ := ruins_run h
    cases h2
    exact .inr (symbol_ruins 0 _ _ _ _ _ h1)
  · exact ruins_fail _ _ fun _ _ => .inl rfl

theorem auth_ruins (k : Nat) (auth : List PermissionLevel) : (authLoop k auth).Ruins fun _ _ v => ∃ more, v = auth ++ more := by
  induction k generalizing auth with
  | zero => exact ruins_pure _
  | succ k ih =>
    refine ruins_step fun x => ?_
    obtain ⟨b, _ | e⟩ := x
    · refine (ih _).mono fun _ _ v h => ?_
      obtain ⟨more, rfl⟩ := h
      exact ⟨b :: more, by simp⟩
    · exact ruins_fail _ _ fun _ _ => ⟨[], by simp⟩

theorem authLoop_keeps (k : Nat) (auth : List PermissionLevel) (fin : Err) (s r : Bytes) (v : List PermissionLevel) (h : (authLoop k auth).runE fin s = .ok (v, none) r) : ∃ more, v = auth ++ more := by
  induction k generalizing auth s with
  | zero => cases h; exact ⟨[], by simp⟩
  | succ k ih =>
    obtain ⟨⟨b, o⟩, m, _, h2⟩ := ruins_run h
    cases o with
    | none =>
      obtain ⟨more, rfl⟩ := ih _ _ h2
      exact ⟨b :: more, by simp⟩
    | some e => cases h2

theorem bytesT_ruins (old : Bytes) : (BytesT.unmarshal old).Ruins fun _ _ v => v = old := by
  refine ruins_step fun x => ?_
  obtain ⟨l, _ | e⟩ := x
  · refine ruins_step fun x => ?_
    obtain ⟨k, b, _ | e⟩ := x
    · exact ruins_pure _
    · exact ruins_fail _ _ fun _ _ => rfl
  · exact ruins_fail _ _ fun _ _ => rfl

theorem action_ruins (old : Action) : old.unmarshal.Ruins fun _ _ v => ActionLeaves old v := by
  refine ruins_step fun a => ?_
  refine ruins_step fun n => ?_
  refine ruins_step fun x => ?_
  obtain ⟨l, _ | e⟩ := x
  · intro fin s v e r h
    obtain ⟨⟨auth, o⟩, m, h1, h2⟩ := ruins_run h
    cases o with
    | some e => cases h2; exact ⟨rfl, auth_ruins _ _ _ _ _ _ _ h1⟩
    | none =>
      obtain ⟨⟨d, o⟩, m', h3, h4⟩ := ruins_run h2
      cases h4
      exact ⟨bytesT_ruins _ _ _ _ _ _ h3, authLoop_keeps _ _ _ _ _ _ h1⟩
  · exact ruins_fail _ _ fun _ _ => ⟨rfl, [], by simp⟩

theorem tps_ruins (old : UInt32) : (TimePointSec.unmarshal old).Ruins fun _ _ v => v = old := by
  refine ruins_step fun x => ?_
  obtain ⟨b, _ | e⟩ := x
  · exact ruins_pure _
  · exact ruins_fail _ _ fun _ _ => rfl

theorem header_ruins (old : TxHeader) : old.unmarshal.Ruins fun _ _ v => HeaderLeaves old v := by
  intro fin s v e r h
  obtain ⟨⟨x1, o⟩, m1, h1, h⟩ := ruins_run h
  cases o with
  | some e => cases h; cases tps_ruins _ _ _ _ _ _ h1; exact .inl rfl
  | none =>
    obtain ⟨⟨x2, o⟩, m2, h2, h⟩ := ruins_run h
    cases o with
    | some e => cases h; cases basic_ruins .u16 _ _ _ _ _ h2; exact .inr (.inl ⟨_, rfl⟩)
    | none =>
      obtain ⟨⟨x3, o⟩, m3, h3, h⟩ := ruins_run h
      cases o with
      | some e => cases h; cases basic_ruins .u32 _ _ _ _ _ h3; exact .inr (.inr (.inl ⟨_, _, rfl⟩))
      | none =>
        obtain ⟨⟨x4, o⟩, m4, h4, h⟩ := ruins_run h
        cases o with
        | some e => cases h; cases basic_ruins .uint _ _ _ _ _ h4; exact .inr (.inr (.inr (.inl ⟨_, _, _, rfl⟩)))
        | none =>
          obtain ⟨⟨x5, o⟩, m5, h5, h⟩ := ruins_run h
          cases o with
          | some e => cases h; cases basic_ruins .u8 _ _ _ _ _ h5; exact .inr (.inr (.inr (.inr (.inl ⟨_, _, _, _, rfl⟩))))
          | none =>
            obtain ⟨⟨x6, o⟩, m6, h6, h⟩ := ruins_run h
            cases h
            cases basic_ruins .uint _ _ _ _ _ h6
            exact .inr (.inr (.inr (.inr (.inr rfl))))

theorem extension_ruins (old : TxExtension) : old.unmarshal.Ruins fun _ _ v => ExtensionLeaves old v := by
  refine ruins_step fun x => ?_
  obtain ⟨b, _ | e⟩ := x
  · intro fin s v e r h
    obtain ⟨⟨d, o⟩, m', h3, h4⟩ := ruins_run h
    cases h4
    exact bytesT_ruins _ _ _ _ _ _ h3
  · exact ruins_fail _ _ fun _ _ => rfl

theorem made_ruins {α : Type} {L : α → α → Prop} (zero : α) (size : Nat) {dec : α → Dec (α × Option Err)} (old : List α) (hL : (dec zero).Ruins fun _ _ y => L zero y) :
    (decSlice zero size dec old).Ruins fun _ _ v => MadeLeaves zero L old v := by
  refine ruins_step fun x => ?_
  obtain ⟨l, _ | e⟩ := x
  · show (makeSlice zero size l fun xs => decEach dec xs).Ruins _
    unfold makeSlice
    split
    · exact ruins_panic _
    · split
      · exact ruins_panic _
      · refine (each_ruins (G := fun _ _ _ _ => True) (L := fun _ x _ y => x = zero → L zero y) _ (fun _ _ _ _ _ _ _ => trivial) fun x hx => ?_).mono ?_
        · rw [List.eq_of_mem_replicate hx]
          exact hL.mono fun _ _ _ h _ => h
        · rintro fin s v ⟨pre, post, done, x, y, m, h1, rfl, h3, _, h5⟩
          have h6 := fun z hz => List.eq_of_mem_replicate (a := zero) (n := l.toNat) (b := z) (by rw [h1]; exact hz)
          refine .inr ⟨done, y, post.length, ?_, h5 (h6 x (by simp))⟩
          rw [← List.eq_replicate_iff.2 ⟨rfl, fun b hb => h6 b (by simp [hb])⟩]
  · exact ruins_fail _ _ fun _ _ => .inl rfl

theorem transaction_ruins (old : Transaction) : old.unmarshal.Ruins fun _ _ v => TransactionLeaves old v := by
  intro fin s v e r h
  obtain ⟨⟨x1, o⟩, m1, h1, h⟩ := ruins_run h
  cases o with
  | some e => cases h; exact .inl ⟨header_ruins _ _ _ _ _ _ h1, rfl, rfl, rfl⟩
  | none =>
    obtain ⟨⟨x2, o⟩, m2, h2, h⟩ := ruins_run h
    cases o with
    | some e => cases h; exact .inr (.inl ⟨made_ruins _ _ _ (action_ruins _) _ _ _ _ _ h2, rfl, rfl⟩)
    | none =>
      obtain ⟨⟨x3, o⟩, m3, h3, h⟩ := ruins_run h
      cases o with
      | some e => cases h; exact .inr (.inr (.inl ⟨made_ruins _ _ _ (action_ruins _) _ _ _ _ _ h3, rfl⟩))
      | none =>
        obtain ⟨⟨x4, o⟩, m4, h4, h⟩ := ruins_run h
        cases h
        exact .inr (.inr (.inr (made_ruins _ _ _ (extension_ruins _) _ _ _ _ _ h4)))

theorem padded_of {n : Nat} {fin : Err} {s b r : Bytes} {k : Nat} {e : Err} (h : (readBytes n).runE fin s = .ok (k, b, some e) r) : ZeroFilled n b := by
  rcases readBytes_ruins _ _ _ _ _ _ _ h with ⟨h, _⟩ | ⟨_, h2, rfl⟩
  · omega
  · simp only [Int.toNat_natCast] at h2 ⊢
    exact ⟨s, n - s.length, by omega, rfl, by simp; omega⟩

theorem key_ruins (old : PubKey) : old.unmarshal.Ruins fun _ _ v => v = old ∨ 2 ≤ v.type.toNat ∧ v.data = old.data ∨ v.type.toNat < 2 ∧ ZeroFilled 33 v.data := by
  refine ruins_step fun x => ?_
  obtain ⟨t, _ | e⟩ := x
  · show (if t == 0 || t == 1 then _ else _ : Dec _).Ruins _
    split
    · rename_i ht
      intro fin s v e r h
      obtain ⟨⟨k, d, o⟩, m, h3, h4⟩ := ruins_run h
      cases h4
      refine .inr (.inr ⟨?_, padded_of h3⟩)
      simp only [Bool.or_eq_true, beq_iff_eq] at ht
      rcases ht with rfl | rfl <;> simp
    · rename_i ht
      have ht : 2 ≤ t.toNat := by
        by_contra hc
        apply ht
        simp only [Bool.or_eq_true, beq_iff_eq]
        rcases (by omega : t.toNat = 0 ∨ t.toNat = 1) with h | h
        · exact .inl (UInt8.toNat_inj.1 h)
        · exact .inr (UInt8.toNat_inj.1 h)
      have fail : ∀ e : Err, (pure (⟨t, old.data⟩, some e) : Dec (PubKey × Option Err)).Ruins fun _ _ v => v = old ∨ 2 ≤ v.type.toNat ∧ v.data = old.data ∨ v.type.toNat < 2 ∧ ZeroFilled 33 v.data :=
        fun e => ruins_fail _ _ fun _ _ => .inr (.inl ⟨ht, rfl⟩)
      split
      · refine ruins_step fun x => ?_
        obtain ⟨_, d, _ | e⟩ := x
        · refine ruins_step fun x => ?_
          obtain ⟨l, _ | e⟩ := x
          · refine ruins_step fun x => ?_
            obtain ⟨_, b, _ | e⟩ := x
            · show (putLen _ _).Ruins _
              unfold putLen
              split
              · exact ruins_panic _
              · exact ruins_pure _
            · exact fail e
          · exact fail e
        · exact fail e
      · exact fail _
  · exact ruins_fail _ _ fun _ _ => .inl rfl

theorem sig_ruins (old : Sig) : old.unmarshal.Ruins fun _ _ v => v = old ∨ 2 ≤ v.type.toNat ∧ v.data = old.data ∨ v.type.toNat < 2 ∧ ZeroFilled 65 v.data := by
  refine ruins_step fun x => ?_
  obtain ⟨t, _ | e⟩ := x
  · show (if t == 0 || t == 1 then _ else _ : Dec _).Ruins _
    split
    · rename_i ht
      intro fin s v e r h
      obtain ⟨⟨k, d, o⟩, m, h3, h4⟩ := ruins_run h
      cases h4
      refine .inr (.inr ⟨?_, padded_of h3⟩)
      simp only [Bool.or_eq_true, beq_iff_eq] at ht
      rcases ht with rfl | rfl <;> simp
    · rename_i ht
      have ht : 2 ≤ t.toNat := by
        by_contra hc
        apply ht
        simp only [Bool.or_eq_true, beq_iff_eq]
        rcases (by omega : t.toNat = 0 ∨ t.toNat = 1) with h | h
        · exact .inl (UInt8.toNat_inj.1 h)
        · exact .inr (UInt8.toNat_inj.1 h)
      have fail : ∀ e : Err, (pure (⟨t, old.data⟩, some e) : Dec (Sig × Option Err)).Ruins fun _ _ v => v = old ∨ 2 ≤ v.type.toNat ∧ v.data = old.data ∨ v.type.toNat < 2 ∧ ZeroFilled 65 v.data :=
        fun e => ruins_fail _ _ fun _ _ => .inr (.inl ⟨ht, rfl⟩)
      split
      · refine ruins_step fun x => ?_
        obtain ⟨_, d, _ | e⟩ := x
        · refine ruins_step fun x => ?_
          obtain ⟨l, _ | e⟩ := x
          · refine ruins_step fun x => ?_
            obtain ⟨_, b, _ | e⟩ := x
            · refine ruins_step fun x => ?_
              obtain ⟨l', _ | e⟩ := x
              · refine ruins_step fun x => ?_
                obtain ⟨_, c, _ | e⟩ := x
                · show (putLen _ _).Ruins _
                  unfold putLen
                  split
                  · exact ruins_panic _
                  · split
                    · exact ruins_panic _
                    · exact ruins_pure _
                · exact fail e
              · exact fail e
            · exact fail e
          · exact fail e
        · exact fail e
      · exact fail _
  · exact ruins_fail _ _ fun _ _ => .inl rfl

theorem unmarshalBytes_ruins (old : Option Bytes) : (unmarshalBytes old).Ruins fun _ _ v => v = old := by
  refine ruins_step fun x => ?_
  obtain ⟨l, _ | e⟩ := x
  · exact ruins_pure _
  · exact ruins_fail _ _ fun _ _ => rfl

theorem chain_ruins (c : ChainTy) (old : c.Val) : (c.unmarshal old).Ruins fun _ _ v => c.Leaves old v := by
  cases c with
  | action => exact action_ruins old
  | asset => exact asset_ruins old
  | extendedAsset =>
    intro fin s v e r h
    obtain ⟨⟨q, o⟩, m, h1, h2⟩ := ruins_run h
    cases o with
    | some e => cases h2; rfl
    | none =>
      obtain ⟨⟨n, o⟩, m', h3, h4⟩ := ruins_run h2
      cases h4
      exact symbol_ruins _ _ _ _ _ _ h3
  | permissionLevel => exact permission_ruins old
  | publicKey => exact key_ruins old
  | signature => exact sig_ruins old
  | transaction => exact transaction_ruins old
  | transactionExtension => exact extension_ruins old
  | transactionHeader => exact header_ruins old
  | blob | bytes => exact unmarshalBytes_ruins old
  | int128 | uint128 =>
    refine ruins_step fun x => ?_
    obtain ⟨b, _ | e⟩ := x
    · refine ruins_step fun x => ?_
      obtain ⟨b, _ | e⟩ := x
      · exact ruins_pure _
      · exact ruins_fail _ _ fun _ _ => rfl
    · exact ruins_fail _ _ fun _ _ => rfl
  | checksum160 | checksum256 | checksum512 | float128 =>
    refine ruins_step fun x => ?_
    obtain ⟨k, b, _ | e⟩ := x
    · exact ruins_pure _
    · exact ruins_fail _ _ fun _ _ => rfl
  | _ =>
    refine ruins_step fun x => ?_
    obtain ⟨b, _ | e⟩ := x
    · exact ruins_pure _
    · exact ruins_fail _ _ fun _ _ => rfl

/-! ### Fields -/

theorem pointed_alloc (t : Ty) (x : t.Val) : t.Pointed x (t.alloc x) := by
  cases t with
  | ptr t => rfl
  | _ => rfl

theorem leaves_alloc (fin : Err) (t : Ty) (m : Mode) (hm : m = .elem ∨ ∃ i, m = .variant i) (x : t.Val) (s : Bytes) (y : t.Val) (h : t.Leaves fin m (t.alloc x) s y) : t.Leaves fin m x s y := by
  cases t with
  | ptr t => rcases hm with rfl | ⟨i, rfl⟩ <;> exact h
  | _ => exact h

theorem clear_others : (fs : Fields) → (v w : fs.Val) → fs.clear none v = some w → w = fs.zero
  | .nil, _, _, _ => rfl
  | .cons vis tag t fs, v, w, h => by
    obtain ⟨x, xs⟩ : t.Val × fs.Val := v
    rw [clear_consEq, if_neg (by simp)] at h
    cases h1 : clearOne vis t x with
    | none => rw [h1] at h; cases h
    | some y =>
      rw [h1] at h
      cases h2 : fs.clear none xs with
      | none => rw [h2] at h; cases h
      | some ys =>
        rw [h2] at h
        cases h
        have hy : y = t.zero := by
          unfold clearOne at h1
          split at h1
          · cases h1
          · cases h1
            exact isNil_isZero t _ (by assumption)
          · split at h1 <;> cases h1
            rfl
        rw [clear_others fs xs ys h2, hy]
        rfl

/-- A member that cannot be decoded is as it was. -/
theorem asMember_ruins : (t : Ty) → (old : t.Val) → (decodeWith chainDecoder t .member old).Ruins fun _ _ v => v = old
  | .basic _, _ => ruins_fail _ _ fun _ _ => rfl
  | .named _, _ => ruins_fail _ _ fun _ _ => rfl
  | .unsupported, _ => ruins_fail _ _ fun _ _ => rfl
  | .bytes, _ => ruins_fail _ _ fun _ _ => rfl
  | .chain _, _ => ruins_fail _ _ fun _ _ => rfl
  | .slice _, _ => ruins_fail _ _ fun _ _ => rfl
  | .array _ _, _ => ruins_fail _ _ fun _ _ => rfl
  | .map _ _, _ => ruins_fail _ _ fun _ _ => rfl
  | .struct _, _ => ruins_fail _ _ fun _ _ => rfl
  | .ref _ _ _, _ => ruins_fail _ _ fun _ _ => rfl
  | .ptr t, old => by
    refine ruins_step fun x => ?_
    obtain ⟨x, _ | e⟩ := x
    · exact ruins_pure _
    · exact ruins_fail _ _ fun _ _ => rfl

theorem member_ruins : (fs : Fields) → (n : Nat) → (old v : fs.Val) → fs.clear (some n) old = some v → (decodeMember chainDecoder fs n v).Ruins fun _ _ w => fs.LeavesMember n old w
  | .nil, _, _, _, _ => ruins_fail _ _ fun _ _ => trivial
  | .cons vis tag t fs, n, old, v, h => by
    obtain ⟨x, xs⟩ : t.Val × fs.Val := old
    rw [clear_consEq] at h
    cases n with
    | zero =>
      rw [if_pos rfl] at h
      simp only at h
      cases h2 : fs.clear none xs with
      | none => rw [h2] at h; cases h
      | some ys =>
        rw [h2] at h
        cases h
        intro fin s w e r hr
        obtain ⟨⟨y, o⟩, m, h3, h4⟩ := ruins_run hr
        cases o with
        | none =>
          simp only at h4
          split at h4 <;> cases h4
        | some e' =>
          cases h4
          exact ⟨asMember_ruins t x _ _ _ _ _ h3, clear_others fs xs ys h2⟩
    | succ n =>
      rw [if_neg (by simp)] at h
      simp only at h
      cases h1 : clearOne vis t x with
      | none => rw [h1] at h; cases h
      | some y =>
        rw [h1] at h
        cases h2 : fs.clear (some n) xs with
        | none => rw [h2] at h; cases h
        | some ys =>
          rw [h2] at h
          cases h
          have hy : y = t.zero := by
            unfold clearOne at h1
            split at h1
            · cases h1
            · cases h1
              exact isNil_isZero t _ (by assumption)
            · split at h1 <;> cases h1
              rfl
          intro fin s w e r hr
          obtain ⟨⟨zs, o⟩, m, h3, h4⟩ := ruins_run hr
          cases h4
          exact ⟨hy, member_ruins fs n xs ys h2 _ _ _ _ _ h3⟩

/-- Decoding without error, over any content. -/
theorem stores_of (t : Ty) (ht : t.Exported) (m : Mode) (old : t.Val) (ho : t.Held old) (fin : Err) (s : Bytes) (y : t.Val) (r : Bytes) (h : (decodeWith chainDecoder t m old).runE fin s = .ok (y, none) r) :
    t.Stores fin m y s r := by
  have h1 := decode_over t ht m old t.zero ho (held_zero t) fin s
  rw [h] at h1
  match hd : (decodeWith chainDecoder t m t.zero).runE fin s, h1 with
  | .ok (w, none) r', h2 =>
    obtain ⟨rfl, _, h3⟩ := h2
    exact ⟨w, ((ty_does t m).gives fin s w _).1 hd, h3 rfl⟩
  | .ok (w, some e) r', h2 => exact nomatch h2.2.1
  | .panic _, h2 => exact h2.elim
  | .diverge, h2 => exact h2.elim

/-- An extension that ends with io.EOF. -/
theorem stops_of (t : Ty) (ht : t.Exported) (m : Mode) (old : t.Val) (ho : t.Held old) (fin : Err) (s : Bytes) (y : t.Val) (r : Bytes) (h : (decodeWith chainDecoder t m old).runE fin s = .ok (y, some .eof) r) :
    fin = .eof ∧ t.Stops m s ∧ r = [] := by
  have h1 := decode_over t ht m old t.zero ho (held_zero t) fin s
  rw [h] at h1
  match hd : (decodeWith chainDecoder t m t.zero).runE fin s, h1 with
  | .ok (w, o) r', h2 =>
    obtain ⟨rfl, h2, _⟩ := h2
    simp only at h2
    subst h2
    exact ((ty_does t m).stops fin s r).1 ⟨w, hd⟩
  | .panic _, h2 => exact h2.elim
  | .diverge, h2 => exact h2.elim

theorem ptr_ruins (t : Ty) (m : Mode) (x : t.Val) (h : (decodeWith chainDecoder t m x).Ruins fun fin s y => t.Leaves fin m x s y) :
    (decodeWith chainDecoder t m x >>= fun y => pure ((some y.1 : Option t.Val), y.2)).Ruins fun fin s v => ∃ y : t.Val, v = some y ∧ t.Leaves fin m x s y := by
  intro fin s v e r hr
  obtain ⟨⟨y, o⟩, m', h1, h2⟩ := ruins_run hr
  cases h2
  exact ⟨y, rfl, h _ _ _ _ _ h1⟩

mutual
theorem ty_ruins : (t : Ty) → t.Exported → (m : Mode) → (old : t.Val) → t.Held old → (decodeWith chainDecoder t m old).Ruins fun fin s v => t.Leaves fin m old s v
  | .basic b, _, m, old, _ => (via_ruins (t := .basic b) rfl m old (fast := fun _ => b.read) (basic_ruins b) (kind_ruins b old)).mono fun fin s v h => by
      unfold Ty.Leaves
      split at h
      · rename_i hm; rw [if_pos hm]; exact h
      · rename_i hm; rw [if_neg hm]; split at h <;> exact h
  | .named b, _, m, old, _ => (via_ruins' (t := .named b) rfl m old (kind_ruins b old)).mono fun fin s v h => by split at h <;> exact h
  | .unsupported, _, m, old, _ => (via_ruins' (t := .unsupported) rfl m old (P := fun _ _ v => v = old) (f := fun old => pure (old, some errUnsupportedType)) (ruins_fail _ _ fun _ _ => rfl)).mono fun fin s v h => by split at h <;> exact h
  | .ref i s a, _, m, old, _ => by
    have h := fun m => (via_ruins' (t := .ref i s a) rfl m old (P := fun _ _ v => v = old) (f := fun _ => .diverge) ruins_diverge).mono (Q := fun _ _ v => v = old) fun fin s v h => by split at h <;> exact h
    cases m with
    | variant _ => exact ruins_diverge
    | decode => exact h .decode
    | elem => exact h .elem
    | value => exact h .value
    | member => exact h .member
  | .bytes, _, m, old, _ => via_ruins (t := .bytes) rfl m old (decodeBytes_ruins old)
      (slice_ruins (G := fun _ (b : UInt8) s r => s = b :: r) (L := fun _ _ s y => s = [] ∧ y = 0) (0 : UInt8) 1 (old := old)
        (fun x _ fin s y m h => by obtain ⟨w, rfl, rfl⟩ := (readUint8_exactly fin s y m).1 h; rfl)
        fun x _ => fun fin s y e r h => by
          obtain ⟨⟨b, o⟩, m, h1, h2⟩ := ruins_run (show (readByte >>= _).runE fin s = _ from h)
          cases o with
          | none => cases h2
          | some e' => cases h2; exact ⟨(readByte_ruins fin s _ _ _ h1).1, rfl⟩)
  | .chain c, _, m, old, _ => by
    have h := chain_ruins c old
    cases m with
    | variant i => exact h.mono fun fin s v h => by simpa [Ty.Leaves] using h
    | member => exact ruins_fail old _ fun _ _ => by simp [Ty.Leaves]
    | value => exact h.mono fun fin s v h => by simpa [Ty.Leaves] using h
    | decode => exact Dec.Ruins.of_eq (decode_chain c .decode (.inl rfl) old) <| h.mono fun fin s v h => by simpa [Ty.Leaves] using h
    | elem => exact Dec.Ruins.of_eq (decode_chain c .elem (.inr (.inl rfl)) old) <| h.mono fun fin s v h => by simpa [Ty.Leaves] using h
  | .ptr t, ht, m, old, ho => by
    have ih := fun m => ptr_ruins t m _ (ty_ruins t ht m _ (over_getD old ho))
    cases m with
    | elem => exact ih .decode
    | variant idx => exact ih (.variant idx)
    | member => exact asMember_ruins (.ptr t) old
    | decode => exact (via_ruins' (t := .ptr t) rfl .decode old (f := ptrSlow t) (ih .value)).mono fun fin s v h => by simpa [Ty.Leaves] using h
    | value => exact (via_ruins' (t := .ptr t) rfl .value old (f := ptrSlow t) (ih .value)).mono fun fin s v h => by simpa [Ty.Leaves] using h
  | .slice t, ht, m, old, ho => via_ruins' (t := .slice t) rfl m old (slice_ruins (G := fun fin => t.Stores fin .elem) (L := fun fin x s y => t.Leaves fin .elem x s y) t.zero t.size old
      (fun x hx fin s y m h => stores_of t ht .elem x (hx.elim (fun h => ho.2 x h) fun h => h ▸ held_zero t) fin s y m h)
      fun x hx => ty_ruins t ht .elem x (hx.elim (fun h => ho.2 x h) fun h => h ▸ held_zero t))
  | .array n t, ht, m, old, ho => via_ruins' (t := .array n t) rfl m old (each_ruins (G := fun fin => t.Stores fin .elem) (L := fun fin x s y => t.Leaves fin .elem x s y) old
      (fun x hx fin s y m h => stores_of t ht .elem x (ho.2 x hx) fin s y m h) fun x hx => ty_ruins t ht .elem x (ho.2 x hx))
  | .map k e, _, m, old, _ => via_ruins' (t := .map k e) rfl m old (map_ruins (ty_does k .decode).yields (ty_does e .decode).yields old)
  | .struct fs, ht, m, old, ho => by
    cases m with
    | variant idx =>
      show Dec.Ruins (if idx ≥ fs.count then pure (old, some errVariantIndex) else match fs.clear (some idx) old with
        | none => .panic _
        | some cleared => decodeMember chainDecoder fs idx cleared) fun _ _ v => if fs.count ≤ idx then v = old else fs.LeavesMember idx old v
      by_cases hi : idx ≥ fs.count
      · rw [if_pos hi]
        exact ruins_fail _ _ fun _ _ => by rw [if_pos hi]
      · rw [if_neg hi]
        cases hc : fs.clear (some idx) old with
        | none => exact ruins_panic _
        | some v => exact (member_ruins fs idx old v hc).mono fun fin s w h => by rw [if_neg hi]; exact h
    | member => exact asMember_ruins (.struct fs) old
    | decode => exact (via_ruins' (t := .struct fs) rfl .decode old (fields_ruins fs ht false old ho)).mono fun fin s v h => h
    | elem => exact (via_ruins' (t := .struct fs) rfl .elem old (fields_ruins fs ht false old ho)).mono fun fin s v h => h
    | value => exact (via_ruins' (t := .struct fs) rfl .value old (fields_ruins fs ht false old ho)).mono fun fin s v h => h
theorem fields_ruins : (fs : Fields) → fs.Exported → (before : Bool) → (old : fs.Val) → fs.Held old →
    (decodeFields chainDecoder fs (if before = true then some .eof else none) old).Ruins fun fin s v => fs.Leaves fin before old s v
  | .nil, _, before, _, _ => by
    cases before with
    | false => exact ruins_pure _
    | true => exact ruins_fail _ _ fun _ _ => rfl
  | .cons vis tag t fs, he, before, old, ho => by
    obtain ⟨x, xs⟩ : t.Val × fs.Val := old
    have ha := held_alloc t x ho.1
    have rest := fun before => fields_ruins fs he.2.2 before xs ho.2.2
    have one := fun m => ty_ruins t he.2.1 m _ ha
    have got := fun m => stores_of t he.2.1 m _ ha
    have stop := fun m => stops_of t he.2.1 m _ ha
    have next : ∀ (y : t.Val) (before : Bool) (fin : Err) (s : Bytes) (v : (Fields.cons vis tag t fs).Val) (e : Err) (r : Bytes),
        ((decodeFields chainDecoder fs (if before = true then some .eof else none) xs >>= fun z => pure ((y, z.1), z.2) : Dec ((t.Val × fs.Val) × Option Err)).runE fin s = .ok (v, some e) r) →
        (show t.Val × fs.Val from v).1 = y ∧ fs.Leaves fin before xs s (show t.Val × fs.Val from v).2 := by
      intro y before fin s v e r h
      obtain ⟨⟨zs, o⟩, m, h1, h2⟩ := ruins_run h
      cases h2
      exact ⟨rfl, rest before fin s zs e _ h1⟩
    have elem : ∀ (fin : Err) (s : Bytes) (v : (Fields.cons vis tag t fs).Val) (e : Err) (r : Bytes) (m : Mode) (_ : m = .elem ∨ ∃ i, m = .variant i),
        ((decodeWith chainDecoder t m (t.alloc x) >>= fun p => match p with
          | (y, err) => match err with
            | some e => pure ((y, xs), some e)
            | none => decodeFields chainDecoder fs none xs >>= fun z => pure ((y, z.1), z.2) : Dec ((t.Val × fs.Val) × Option Err)).runE fin s = .ok (v, some e) r) →
        t.Leaves fin m x s (show t.Val × fs.Val from v).1 ∧ (show t.Val × fs.Val from v).2 = xs ∨
        ∃ m', t.Stores fin m (show t.Val × fs.Val from v).1 s m' ∧ fs.Leaves fin false xs m' (show t.Val × fs.Val from v).2 := by
      intro fin s v e r m hm h
      obtain ⟨⟨y, o⟩, m1, h1, h2⟩ := ruins_run h
      cases o with
      | some e => cases h2; exact .inl ⟨leaves_alloc fin t m hm x s y (one m _ _ _ _ _ h1), rfl⟩
      | none =>
        obtain ⟨h3, h4⟩ := next _ false _ _ _ _ _ h2
        exact .inr ⟨m1, by rw [h3]; exact got m fin s y m1 h1, h4⟩
    intro fin s v e r h
    cases vis with
    | blank => exact next x before fin s v e r h
    | unexported => exact absurd rfl he.1
    | exported =>
      cases tag with
      | none => exact elem fin s v e r .elem (.inl rfl) h
      | optional =>
        obtain ⟨⟨p, o⟩, m1, h1, h2⟩ := ruins_run (show (readBool >>= _).runE fin s = _ from h)
        cases o with
        | some e =>
          cases h2
          obtain ⟨⟨b, o⟩, m, h3, h4⟩ := ruins_run h1
          cases h4
          exact .inl ⟨(readByte_ruins fin s _ _ _ h3).1, pointed_alloc t x, rfl⟩
        | none =>
          obtain ⟨w, rfl, c, rfl, hp⟩ := (readBool_exactly fin s p m1).1 h1
          cases p with
          | false =>
            simp only [Bool.false_eq_true, if_false] at h2
            have hc : c = 0 := by simpa using hp
            subst hc
            exact .inr (.inl ⟨m1, rfl, next t.zero before fin m1 v e r h2⟩)
          | true =>
            simp only [if_true] at h2
            exact .inr (.inr ⟨c, m1, by simpa using hp, rfl, elem fin m1 v e r .elem (.inl rfl) h2⟩)
      | extension =>
        obtain ⟨⟨y, o⟩, m1, h1, h2⟩ := ruins_run (show (decodeWith chainDecoder t .elem (t.alloc x) >>= _).runE fin s = _ from h)
        cases o with
        | none =>
          obtain ⟨h3, h4⟩ := next _ false _ _ _ _ _ h2
          exact .inr (.inr ⟨m1, by rw [h3]; exact got .elem fin s y m1 h1, h4⟩)
        | some e' =>
          by_cases hee : e' = .eof
          · subst hee
            simp only [if_true] at h2
            obtain ⟨h5, h6, rfl⟩ := stop .elem fin s y m1 h1
            obtain ⟨h3, h4⟩ := next _ true _ _ _ _ _ h2
            exact .inr (.inl ⟨h5, h6, h3, h4⟩)
          · simp only [if_neg hee] at h2
            cases h2
            exact .inl ⟨leaves_alloc fin t .elem (.inl rfl) x s y (one .elem _ _ _ _ _ h1), rfl⟩
      | variant =>
        obtain ⟨⟨i, o⟩, m1, h1, h2⟩ := ruins_run (show (readByte >>= _).runE fin s = _ from h)
        cases o with
        | some e =>
          cases h2
          exact .inl ⟨(readByte_ruins fin s _ _ _ h1).1, pointed_alloc t x, rfl⟩
        | none =>
          obtain ⟨w, rfl, rfl⟩ := (readByte_exactly fin s i m1).1 h1
          exact .inr ⟨i, m1, rfl, elem fin m1 v e r (.variant i.toNat) (.inr ⟨_, rfl⟩) h2⟩
end

end Verif
