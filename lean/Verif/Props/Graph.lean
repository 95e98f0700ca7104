import Verif.Props.Recursive
import Verif.Lemmas.Graph
import Verif.Lemmas.GraphCalm
import Verif.Lemmas.Full
/-! # C110: values of recursive types whose pointers share or form cycles -/
namespace Verif

/-- What Encode does on a value in memory does not depend on how deep the model follows it: a result or panic at one depth is the result or panic at every larger one. -/
theorem C110_depth (D : Decls) (hi : ∀ i, (D i).Indirect true) (G : Graph D) (t : Ty) (ht : t.Indirect true) (v : (t.subst addrTy).Val) (n k : Nat) (w : Nat → WEv) :
    (∀ e out fl, (encode (t.unfold D n) (t.follow G n v)).runW w = .ok e out fl → (encode (t.unfold D (n + k)) (t.follow G (n + k) v)).runW w = .ok e out fl) ∧
    ∀ why, (encode (t.unfold D n) (t.follow G n v)).runW w = .panic why → (encode (t.unfold D (n + k)) (t.follow G (n + k) v)).runW w = .panic why :=
  (follow_below hi G t ht v n k).runW w

/-- Without a cycle Encode ends, however many pointers lead to the same struct. -/
theorem C110_ends (D : Decls) (hD : D.Ok) (G : Graph D) (r : Nat → UInt64 → Nat) (hr : G.Ranked r) (t : Ty) (ht : t.RefsOk D) (v : (t.subst addrTy).Val) (n : Nat)
    (hv : ∀ j q, t.Mentions v j q → r j q < n) (w : Nat → WEv) : (encode (t.unfold D n) (t.follow G n v)).runW w ≠ .diverge :=
  (encode_finite _ _ (follow_ends t ht v fun i s a p hm => ranked_ends hD G r hr n i s a p (hv i p hm))).runW w

/-- It writes the tree of all paths, once per path, and Decode reads the tree back: what was shared is then there once per path. -/
theorem C110_roundtrip_partial (D : Decls) (hD : D.Ok) (hi : ∀ i, (D i).Indirect true) (he : ∀ i, (D i).Encodable) (hd : ∀ i, (D i).Decodable) (G : Graph D) (t : Ty) (ht : t.RefsOk D)
    (ht' : t.Indirect true) (he' : t.Encodable) (hd' : t.Decodable .decode) (v : (t.subst addrTy).Val) (n : Nat) (hw : (t.unfold D n).Wf (t.follow G n v)) :
    ∃ bs w, (t.unfold D n).Same (t.follow G n v) w ∧ (∀ k, (encode (t.unfold D (n + k)) (t.follow G (n + k) v)).Writes bs) ∧
      ∀ k, (decode (t.unfold D (n + k)) (t.unfold D (n + k)).zero).Reads bs (t.lift D k w) := by
  obtain ⟨bs, w, h1, h2, h3⟩ := C77_roundtrip_partial D hD he hd t ht he' hd' n (t.follow G n v) hw
  exact ⟨bs, w, h1, fun k => (follow_below hi G t ht' v n k).run_ok (h2 0), h3⟩

/-- If the value leads into a cycle (or an endless chain), Encode never returns a nil error, on any writer. -/
theorem C110_cycle (D : Decls) (hi : ∀ i, (D i).Indirect true) (G : Graph D) (S : Nat → UInt64 → Prop) (hS : G.Endless S) (t : Ty) (ht : t.Indirect true) (v : (t.subst addrTy).Val)
    (i : Nat) (p : UInt64) (hm : t.Mentions v i p) (hp : S i p) (n : Nat) (w : Nat → WEv) (out : Bytes) (fl : Bool) :
    (encode (t.unfold D n) (t.follow G n v)).runW w ≠ .ok none out fl :=
  (follow_noNil (level_closed D n) i p (fun s a => endless_noNil hi G S hS n i s a p hp) t true ht v hm).runW w out fl

/-- If moreover nothing in memory gives an error (no nil pointer outside of optional fields, lengths that can be written), Encode to a writer that takes everything does not return: the
stack of the goroutine is exhausted. (Addresses that are not reached can be given any content.) -/
theorem C110_endless (D : Decls) (hi : ∀ i, (D i).Indirect true) (he : ∀ i, (D i).Encodable) (G : Graph D) (hG : ∀ i p, ((D i).subst addrTy).Wf (G i p)) (S : Nat → UInt64 → Prop) (hS : G.Endless S)
    (t : Ty) (ht : t.Indirect true) (he' : t.Encodable) (v : (t.subst addrTy).Val) (hv : (t.subst addrTy).Wf v) (i : Nat) (p : UInt64) (hm : t.Mentions v i p) (hp : S i p) (n : Nat) :
    (encode (t.unfold D n) (t.follow G n v)).run = .diverge :=
  (follow_calm (level_closed D n) (level_calm hi he G hG n) t true ht he' v hv).resolve_right fun ⟨bs, h⟩ =>
    (follow_noNil (level_closed D n) i p (fun s a => endless_noNil hi G S hS n i s a p hp) t true ht v hm).run bs h

/-- Without a cycle, under the same conditions, it writes something and returns nil. -/
theorem C110_writes (D : Decls) (hD : D.Ok) (hi : ∀ i, (D i).Indirect true) (he : ∀ i, (D i).Encodable) (G : Graph D) (hG : ∀ i p, ((D i).subst addrTy).Wf (G i p)) (r : Nat → UInt64 → Nat)
    (hr : G.Ranked r) (t : Ty) (ht : t.RefsOk D) (ht' : t.Indirect true) (he' : t.Encodable) (v : (t.subst addrTy).Val) (hv : (t.subst addrTy).Wf v) (n : Nat)
    (hn : ∀ j q, t.Mentions v j q → r j q < n) : ∃ bs, (encode (t.unfold D n) (t.follow G n v)).Writes bs :=
  (follow_calm (level_closed D n) (level_calm hi he G hG n) t true ht' he' v hv).resolve_left fun h =>
    (encode_finite _ _ (follow_ends t ht v fun i s a p hm => ranked_ends hD G r hr n i s a p (hn i p hm))).run h

/-! ## The error is not there, or is that of the writer -/

/-- type Item struct { A uint64; Next *Item } -/
def itemDecls : Decls := fun _ => .cons .exported .none (.basic .u64) (.cons .exported .none (.ptr (.ref 0 16 8)) .nil)

/-- The fields of an item -/
def item (G : Graph itemDecls) (p : UInt64) : UInt64 × Option UInt64 × Unit := G 0 p

theorem item_step (G : Graph itemDecls) (n : Nat) (p q : UInt64) (h : (item G p).2.1 = some q) : encodeWith chainEncoder (itemDecls.level (n + 1) 0 16 8) (G.follow (n + 1) 0 16 8 p) =
    (writeUint64 (item G p).1 >>= fun e => match e with
      | some e => pure (some e)
      | none => encodeWith chainEncoder (itemDecls.level n 0 16 8) (G.follow n 0 16 8 q) >>= fun e => match e with
        | some e => pure (some e)
        | none => pure none) := by
  have key : ∀ (x : UInt64 × Option UInt64 × Unit), x.2.1 = some q → encodeFields chainEncoder ((itemDecls 0).subst (itemDecls.level n)) (Fields.mapRefs (G.follow n) (itemDecls 0) x) =
    (writeUint64 x.1 >>= fun e => match e with
      | some e => pure (some e)
      | none => encodeWith chainEncoder (itemDecls.level n 0 16 8) (G.follow n 0 16 8 q) >>= fun e => match e with
        | some e => pure (some e)
        | none => pure none) := by
    rintro ⟨a, b, c⟩ rfl
    show (writeUint64 a >>= fun e => match e with
      | some e => pure (some e)
      | none => encodeWith chainEncoder (.ptr (itemDecls.level n 0 16 8)) (some (G.follow n 0 16 8 q)) >>= fun e => match e with
        | some e => pure (some e)
        | none => pure none) = _
    rw [encode_ptr (level_closed itemDecls n 0 16 8)]
  exact key (G 0 p) h

/-- Items in a ring: Encode does not return if the writer takes everything (the goroutine's stack is exhausted), and fills a writer with room for m bytes, however large m is. -/
theorem C110_ring (G : Graph itemDecls) (S : UInt64 → Prop) (hS : ∀ p, S p → ∃ q, (item G p).2.1 = some q ∧ S q) (p : UInt64) (hp : S p) :
    (∀ n, (encode ((Ty.ref 0 16 8).unfold itemDecls n) ((Ty.ref 0 16 8).follow G n p)).run = .diverge) ∧
    ∀ (e : Err) (m n : Nat), m < n → ∃ out, (encode ((Ty.ref 0 16 8).unfold itemDecls n) ((Ty.ref 0 16 8).follow G n p)).runFull e m = .ok (some e) out ∧ out.length = m := by
  constructor
  · intro n
    show (encodeWith chainEncoder (itemDecls.level n 0 16 8) (G.follow n 0 16 8 p)).run = _
    induction n generalizing p with
    | zero => rfl
    | succ n ih =>
      obtain ⟨q, hq, hS'⟩ := hS p hp
      rw [item_step G n p q hq]
      rw [Enc.run_bind, show (writeUint64 (item G p).1).run = _ from writeBytes_writes _, EOut.bind_ok]
      show EOut.prepend _ (Enc.run (_ >>= _)) = _
      rw [Enc.run_bind, ih q hS']
      rfl
  · intro e m n
    show _ → ∃ out, (encodeWith chainEncoder (itemDecls.level n 0 16 8) (G.follow n 0 16 8 p)).runFull e m = _ ∧ _
    induction n generalizing p m with
    | zero => exact fun h => absurd h (Nat.not_lt_zero _)
    | succ n ih =>
      intro hn
      obtain ⟨q, hq, hS'⟩ := hS p hp
      have hl : (leBytes 8 (item G p).1.toNat).length = 8 := length_leBytes ..
      rw [item_step G n p q hq, runFull_bind]
      by_cases h8 : 8 ≤ m
      · obtain ⟨out, h1, h2⟩ := ih q hS' (m - 8) (by omega)
        have hw : (writeUint64 (item G p).1).runFull e m = .ok none (leBytes 8 (item G p).1.toNat) :=
          (runFull_any e _ m none _ (writeBytes_writes (leBytes 8 (item G p).1.toNat))).1 (by omega)
        rw [hw]
        show ∃ out, EOut.prepend _ (Enc.runFull e (_ >>= _) _) = _ ∧ _
        rw [runFull_bind, hl, h1]
        refine ⟨leBytes 8 (item G p).1.toNat ++ (out ++ []), rfl, ?_⟩
        simp [hl, h2]
        omega
      · have hw : (writeUint64 (item G p).1).runFull e m = .ok (some e) ((leBytes 8 (item G p).1.toNat).take m ++ []) := by
          show (if (leBytes 8 (item G p).1.toNat).length ≤ m then _ else _) = _
          rw [if_neg (by omega)]
          rfl
        rw [hw]
        refine ⟨((leBytes 8 (item G p).1.toNat).take m ++ []) ++ [], rfl, ?_⟩
        simp [hl]
        omega

/-! ## Instances -/

/-- One item whose `Next` is itself, and items numbered downwards to 0, where `Next` is nil -/
def selfItem : Graph itemDecls := fun _ p => (show UInt64 × Option UInt64 × Unit from (p, some p, ()))
def chainItems : Graph itemDecls := fun _ p => (show UInt64 × Option UInt64 × Unit from (p, if p = 0 then none else some (p - 1), ()))

/-- Encode on an item that is its own successor: C110_ring and C110_cycle apply. -/
example : (∀ n, (encode ((Ty.ref 0 16 8).unfold itemDecls n) ((Ty.ref 0 16 8).follow selfItem n (7 : UInt64))).run = .diverge) ∧
    selfItem.Endless (fun _ p => p = 7) ∧ (∀ i, (itemDecls i).Indirect true) ∧ (Ty.ref 0 16 8).Mentions (7 : UInt64) 0 7 :=
  ⟨(C110_ring selfItem (· = 7) (fun p hp => ⟨7, by rw [hp]; rfl, rfl⟩) 7 rfl).1, fun i p hp => ⟨0, 7, .inr (.inl ⟨(7 : UInt64), by rw [hp]; rfl, rfl, rfl⟩), rfl⟩,
    fun _ => ⟨trivial, nofun, rfl, nofun, trivial⟩, rfl, rfl⟩

/-- … and C110_endless. -/
example (n : Nat) : (encode ((Ty.ref 0 16 8).unfold itemDecls n) ((Ty.ref 0 16 8).follow selfItem n (7 : UInt64))).run = .diverge :=
  C110_endless itemDecls (fun _ => ⟨trivial, nofun, rfl, nofun, trivial⟩) (fun _ => ⟨rfl, trivial, rfl, trivial, trivial⟩) selfItem (fun _ p => ⟨.inr trivial, .inr ⟨p, rfl, trivial⟩, trivial⟩)
    (fun _ _ => True) (fun _ p _ => ⟨0, p, .inr (.inl ⟨p, rfl, rfl, rfl⟩), trivial⟩) (.ref 0 16 8) rfl trivial (7 : UInt64) trivial 0 7 ⟨rfl, rfl⟩ trivial n

/-- type Pair struct { A uint64; L *Pair `eosio:"optional"`; R *Pair `eosio:"optional"` } -/
def pairDecls : Decls := fun _ => .cons .exported .none (.basic .u64) (.cons .exported .optional (.ptr (.ref 0 24 8)) (.cons .exported .optional (.ptr (.ref 0 24 8)) .nil))

/-- Both pointers of the pair at 1 lead to the pair at 0. -/
def sharedPair : Graph pairDecls := fun _ p => (show UInt64 × Option UInt64 × Option UInt64 × Unit from if p = 1 then (5, some 0, some 0, ()) else (6, none, none, ()))

theorem pair_ok : pairDecls.Ok := fun _ => ⟨trivial, (by decide +kernel : (pairDecls 0).layout 0 1 = (24, 8)), (by decide +kernel : (pairDecls 0).layout 0 1 = (24, 8)), trivial⟩
theorem pair_indirect (i : Nat) : (pairDecls i).Indirect true := ⟨trivial, nofun, rfl, fun _ => rfl, rfl, fun _ => rfl, trivial⟩

/-- The pair at 1 is written with the pair at 0 twice. -/
theorem pair_writes : (encode ((Ty.ref 0 24 8).unfold pairDecls 2) ((Ty.ref 0 24 8).follow sharedPair 2 (1 : UInt64))).Writes
    [5, 0, 0, 0, 0, 0, 0, 0, 1, 6, 0, 0, 0, 0, 0, 0, 0, 0, 0, 1, 6, 0, 0, 0, 0, 0, 0, 0, 0, 0] := by
  unfold Enc.Writes
  rfl

theorem pair_ranked : sharedPair.Ranked fun _ p => p.toNat := by
  intro i p j q h
  have key : ∀ x : UInt64 × Option UInt64 × Option UInt64 × Unit, (x.2.1 = none ∨ x.2.1 = some 0 ∧ p = 1) → (x.2.2.1 = none ∨ x.2.2.1 = some 0 ∧ p = 1) → (pairDecls i).Mentions x j q → q.toNat < p.toNat := by
    rintro ⟨a, l, r, u⟩ hl hr hm
    rcases hm with hm | ⟨x, hx, -, rfl⟩ | ⟨x, hx, -, rfl⟩ | hm
    · exact hm.elim
    · rcases hl with hl | ⟨hl, rfl⟩
      · cases hl.symm.trans hx
      · cases hl.symm.trans hx
        decide
    · rcases hr with hr | ⟨hr, rfl⟩
      · cases hr.symm.trans hx
      · cases hr.symm.trans hx
        decide
    · exact hm.elim
  refine key (sharedPair i p) ?_ ?_ h
  all_goals
    by_cases hp : p = 1
    · subst hp; exact .inr ⟨rfl, rfl⟩
    · left
      have e : (show UInt64 × Option UInt64 × Option UInt64 × Unit from sharedPair i p) = (6, none, none, ()) := if_neg hp
      first | exact congrArg (fun x => x.2.1) e | exact congrArg (fun x => x.2.2.1) e

/-- The hypotheses of C110_ends and C110_roundtrip_partial are met by it. -/
example (w : Nat → WEv) : (encode ((Ty.ref 0 24 8).unfold pairDecls 2) ((Ty.ref 0 24 8).follow sharedPair 2 (1 : UInt64))).runW w ≠ .diverge :=
  C110_ends pairDecls pair_ok sharedPair _ pair_ranked (.ref 0 24 8) (by decide +kernel : (pairDecls 0).layout 0 1 = (24, 8)) (1 : UInt64) 2 (by rintro j q ⟨-, rfl⟩; decide) w
example : ∃ bs, (encode ((Ty.ref 0 24 8).unfold pairDecls 2) ((Ty.ref 0 24 8).follow sharedPair 2 (1 : UInt64))).Writes bs := ⟨_, pair_writes⟩
example (i : Nat) (p : UInt64) : ((pairDecls i).subst addrTy).Wf (sharedPair i p) := by
  have key : ∀ x : UInt64 × Option UInt64 × Option UInt64 × Unit, ((pairDecls i).subst addrTy).Wf x := by
    rintro ⟨a, _ | l, _ | r, u⟩
    · exact ⟨.inr trivial, .inl ⟨rfl, rfl⟩, .inl ⟨rfl, rfl⟩, trivial⟩
    · exact ⟨.inr trivial, .inl ⟨rfl, rfl⟩, .inr ⟨r, rfl, trivial⟩, trivial⟩
    · exact ⟨.inr trivial, .inr ⟨l, rfl, trivial⟩, .inl ⟨rfl, rfl⟩, trivial⟩
    · exact ⟨.inr trivial, .inr ⟨l, rfl, trivial⟩, .inr ⟨r, rfl, trivial⟩, trivial⟩
  exact key (sharedPair i p)
example : ∃ bs w, ((Ty.ref 0 24 8).unfold pairDecls 2).Same ((Ty.ref 0 24 8).follow sharedPair 2 (1 : UInt64)) w ∧
    (∀ k, (encode ((Ty.ref 0 24 8).unfold pairDecls (2 + k)) ((Ty.ref 0 24 8).follow sharedPair (2 + k) (1 : UInt64))).Writes bs) ∧
    ∀ k, (decode ((Ty.ref 0 24 8).unfold pairDecls (2 + k)) ((Ty.ref 0 24 8).unfold pairDecls (2 + k)).zero).Reads bs ((Ty.ref 0 24 8).lift pairDecls k w) :=
  C110_roundtrip_partial pairDecls pair_ok pair_indirect (fun _ => ⟨rfl, trivial, rfl, trivial, rfl, trivial, trivial⟩)
    (fun _ => ⟨rfl, nofun, (nomatch ·), rfl, nofun, trivial, rfl, nofun, trivial, trivial⟩) sharedPair (.ref 0 24 8) (by decide +kernel : (pairDecls 0).layout 0 1 = (24, 8)) rfl trivial trivial (1 : UInt64) 2
    ⟨.inr trivial, .inr ⟨_, rfl, .inr trivial, .inl ⟨rfl, rfl⟩, .inl ⟨rfl, rfl⟩, trivial⟩, .inr ⟨_, rfl, .inr trivial, .inl ⟨rfl, rfl⟩, .inl ⟨rfl, rfl⟩, trivial⟩, trivial⟩

/-- Pairs numbered downwards to 0, both pointers of each leading to the next -/
def pairChain : Graph pairDecls := fun _ p => (show UInt64 × Option UInt64 × Option UInt64 × Unit from (p, if p = 0 then none else some (p - 1), if p = 0 then none else some (p - 1), ()))

theorem isZero_present (t : Ty) (v : (Ty.ptr t).Val) (h : (show Option t.Val from v).isSome := by rfl) : (Ty.ptr t).isZero v = false := by
  have hv : v ≠ (Ty.ptr t).zero := by
    rintro rfl
    cases h
  unfold Ty.isZero
  exact decide_eq_false hv

theorem pair_step (n : Nat) (p q : UInt64) (h : (if p = 0 then none else some (p - 1)) = some q) (b : Bytes)
    (ih : (encodeWith chainEncoder (pairDecls.level n 0 24 8) (pairChain.follow n 0 24 8 q)).Writes b) :
    (encodeWith chainEncoder (pairDecls.level (n + 1) 0 24 8) (pairChain.follow (n + 1) 0 24 8 p)).Writes (leBytes 8 p.toNat ++ ([1] ++ (b ++ ([1] ++ (b ++ []))))) := by
  have hz : (Ty.ptr (pairDecls.level n 0 24 8)).isZero (some (pairChain.follow n 0 24 8 q)) = false := isZero_present _ _
  have hp : (encodeWith chainEncoder (.ptr (pairDecls.level n 0 24 8)) (some (pairChain.follow n 0 24 8 q))).Writes b := by
    rw [encode_ptr (level_closed pairDecls n 0 24 8)]
    exact ih
  have fld : ∀ (rest : Enc (Option Err)) (c : Bytes), rest.Writes c → (encodeField .exported .optional ((Ty.ptr (pairDecls.level n 0 24 8)).isZero (some (pairChain.follow n 0 24 8 q)))
      (encodeWith chainEncoder (.ptr (pairDecls.level n 0 24 8)) (some (pairChain.follow n 0 24 8 q))) rest).Writes ([1] ++ (b ++ c)) := by
    intro rest c hc
    rw [hz]
    unfold encodeField
    rw [if_pos rfl]
    exact Enc.Writes.bind (writeBool_writes true) (Enc.Writes.bind hp hc)
  have key : ∀ x : UInt64 × Option UInt64 × Option UInt64 × Unit, x.1 = p → x.2.1 = some q → x.2.2.1 = some q →
      (encodeFields chainEncoder ((pairDecls 0).subst (pairDecls.level n)) (Fields.mapRefs (pairChain.follow n) (pairDecls 0) x)).Writes (leBytes 8 p.toNat ++ ([1] ++ (b ++ ([1] ++ (b ++ []))))) := by
    rintro ⟨a, l, r, u⟩ rfl rfl rfl
    exact Enc.Writes.bind (writeBytes_writes _) (fld _ _ (fld _ _ rfl))
  exact key (pairChain 0 p) rfl h h

/-- What is shared is written once per path: k + 1 pairs in memory, and 10 · (2^(k+1) - 1) bytes written. -/
theorem C110_paths (k : Nat) (hk : k < 2 ^ 64) : ∃ bs, (encode ((Ty.ref 0 24 8).unfold pairDecls (k + 1)) ((Ty.ref 0 24 8).follow pairChain (k + 1) k.toUInt64)).Writes bs ∧
    bs.length = 10 * (2 ^ (k + 1) - 1) := by
  show ∃ bs, (encodeWith chainEncoder (pairDecls.level (k + 1) 0 24 8) (pairChain.follow (k + 1) 0 24 8 k.toUInt64)).Writes bs ∧ _
  induction k with
  | zero => exact ⟨[0, 0, 0, 0, 0, 0, 0, 0, 0, 0], rfl, rfl⟩
  | succ k ih =>
    obtain ⟨b, h1, h2⟩ := ih (by omega)
    have hq : (if (k + 1).toUInt64 = 0 then none else some ((k + 1).toUInt64 - 1)) = some k.toUInt64 := by
      have e : (k + 1).toUInt64.toNat = k + 1 := Nat.mod_eq_of_lt hk
      rw [if_neg (fun h => by rw [h] at e; cases e)]
      congr 1
      apply UInt64.toNat_inj.1
      rw [UInt64.toNat_sub_of_le _ _ (by rw [UInt64.le_iff_toNat_le, e]; show 1 ≤ k + 1; omega), e]
      show k + 1 - 1 = k % 2 ^ 64
      rw [Nat.mod_eq_of_lt (by omega)]
      rfl
    refine ⟨_, pair_step (k + 1) _ _ hq b h1, ?_⟩
    simp only [List.length_append, length_leBytes, List.length_cons, List.length_nil, h2]
    have : 0 < 2 ^ k := Nat.pow_pos (by decide)
    rw [Nat.pow_succ 2 (k + 1), Nat.pow_succ 2 k]
    omega

end Verif
