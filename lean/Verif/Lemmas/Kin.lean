import Verif.Spec.Kin
import Verif.Lemmas.TwinVariant
/-! # The two codecs on types with variants -/
namespace Verif

variable {a : Abi}

theorem kin_names : {fs : List AbiField} → {gs : Fields} → (w : KinMembers a fs gs) → (v : gs.Val) → (w.entries v).map Prod.fst = fs.map AbiField.name
  | _, _, .nil, _ => rfl
  | _, _, .plain _ _ ws, v => by rw [KinMembers.entries, List.map_cons, List.map_cons, kin_names ws]
  | _, _, .pointer _ _ ws, v => by rw [KinMembers.entries, List.map_cons, List.map_cons, kin_names ws]
  | _, _, .optional _ _ ws, v => by rw [KinMembers.entries, List.map_cons, List.map_cons, kin_names ws]
  | _, _, .within w ws, v => by rw [KinMembers.entries, List.map_append, List.map_append, kin_names w, kin_names ws]
  | _, _, .variant _ _ ws, v => by rw [KinMembers.entries, List.map_cons, List.map_cons, kin_names ws]

/-! ### What Decode accepts, Abi.Decode accepts -/

mutual
theorem kin_inner_accepts : {b : Bytes} → {t : Ty} → (tw : KinInner a b t) → (m : Mode) → m = .decode ∨ m = .elem → (v : t.Val) → (w : Bytes) → w.length * 16 ≤ maxAlloc →
    t.Takes m v w → AcceptsInner a b (tw.av v) w
  | _, _, .leaf tw, m, hm, v, w, hL, h => inner_accepts tw m hm v w hL h
  | _, _, .alias h1 h2 tw, m, hm, v, w, hL, h => .alias h1 (.plain h2 (kin_body_accepts tw m hm v w hL h))
  | _, _, .struct (gs := gs) h1 h2 tw, m, hm, v, w, hL, h => by
    have h : gs.Takes v w := by rcases hm with rfl | rfl <;> exact h
    exact .struct h1 (kin_members_accepts tw v w hL h) ((gathers_nodup (Eq.subst (motive := List.Nodup) (kin_names tw v).symm h2) _).2 rfl)
theorem kin_body_accepts : {b : Bytes} → {arr : Bool} → {t : Ty} → (tw : KinBody a b arr t) → (m : Mode) → m = .decode ∨ m = .elem → (v : t.Val) → (w : Bytes) → w.length * 16 ≤ maxAlloc →
    t.Takes m v w → AcceptsBody a b arr (tw.av v) w
  | _, _, _, .one tw, m, hm, v, w, hL, h => .one (kin_inner_accepts tw m hm v w hL h)
  | _, _, _, .many tw, m, hm, v, w, hL, h => by
    obtain ⟨_, _, lb, es, h1, h2, h3, h4, rfl⟩ := h
    rw [List.length_append] at hL
    have h5 := each_items (f := fun x => tw.av x) (L := es.length) (fun x w hw h => kin_inner_accepts tw .elem (.inr rfl) x w (mul_le_of (by omega) hL) h) (Nat.le_refl _) h4
    have h6 := acceptsItems_length h5
    refine .many (by rw [List.length_map]; exact h1) (by rw [List.length_map]; exact h2) (mul_le_of (Nat.le_trans h6 (Nat.le_add_left _ _)) hL) h5
  | _, _, _, .pointers (t := t) tw, m, hm, v, w, hL, h => by
    obtain ⟨_, _, lb, es, h1, h2, h3, h4, rfl⟩ := h
    rw [List.length_append] at hL
    have h5 := each_items (a := a) (f := fun x : Option t.Val => match x with
      | none => .nil
      | some x => tw.av x) (L := es.length) (fun x w hw h => by
        obtain ⟨y, e, h⟩ := h
        have e : x = some y := e
        subst e
        exact kin_inner_accepts tw .decode (.inl rfl) y w (mul_le_of (by omega) hL) h) (Nat.le_refl _) h4
    have h6 := acceptsItems_length h5
    refine .many (by rw [List.length_map]; exact h1) (by rw [List.length_map]; exact h2) (mul_le_of (Nat.le_trans h6 (Nat.le_add_left _ _)) hL) h5
theorem kin_members_accepts : {fs : List AbiField} → {gs : Fields} → (tw : KinMembers a fs gs) → (v : gs.Val) → (w : Bytes) → w.length * 16 ≤ maxAlloc →
    gs.Takes v w → AcceptsMembers a fs (tw.entries v) w
  | _, _, .nil, v, w, hL, h => by
    have h : w = [] := h
    subst h
    exact .nil
  | _, _, .plain (f := f) (t := t) (gs := gs) h1 tw ws, v, w, hL, h => by
    suffices H : ∀ p : t.Val × gs.Val, Fields.Takes (.cons .exported .none t gs) p w → AcceptsMembers a _ (KinMembers.entries (.plain h1 tw ws) p) w from H v h
    rintro ⟨x, v⟩ h
    obtain ⟨b1, b2, h2, rfl, h3⟩ := h
    rw [List.length_append] at hL
    exact .cons (.plain h1 (kin_body_accepts tw .elem (.inr rfl) x b1 (mul_le_of (by omega) hL) h3)) (kin_members_accepts ws v b2 (mul_le_of (by omega) hL) h2)
  | _, _, .pointer (f := f) (t := t) (gs := gs) h1 tw ws, v, w, hL, h => by
    suffices H : ∀ p : Option t.Val × gs.Val, Fields.Takes (.cons .exported .none (.ptr t) gs) p w → AcceptsMembers a _ (KinMembers.entries (.pointer h1 tw ws) p) w from H v h
    rintro ⟨x, v⟩ h
    obtain ⟨b1, b2, h2, rfl, y, e, h3⟩ := h
    have e : x = some y := e
    subst e
    rw [List.length_append] at hL
    exact .cons (.plain h1 (kin_body_accepts tw .decode (.inl rfl) y b1 (mul_le_of (by omega) hL) h3)) (kin_members_accepts ws v b2 (mul_le_of (by omega) hL) h2)
  | _, _, .optional (f := f) (t := t) (gs := gs) h1 tw ws, v, w, hL, h => by
    suffices H : ∀ p : Option t.Val × gs.Val, Fields.Takes (.cons .exported .optional (.ptr t) gs) p w → AcceptsMembers a _ (KinMembers.entries (.optional h1 tw ws) p) w from H v h
    rintro ⟨x, v⟩ h
    obtain ⟨b1, b2, h2, rfl, h3⟩ := h
    rw [List.length_append] at hL
    rcases h3 with ⟨e, rfl⟩ | ⟨p, b, h4, ⟨y, e, h3⟩, rfl⟩
    · have e : x = none := e
      subst e
      exact .cons (.absent h1) (kin_members_accepts ws v b2 (mul_le_of (by omega) hL) h2)
    · have e : x = some y := e
      subst e
      rw [List.length_cons] at hL
      exact .cons (.present h1 h4 (kin_body_accepts tw .decode (.inl rfl) y b (mul_le_of (by omega) hL) h3)) (kin_members_accepts ws v b2 (mul_le_of (by omega) hL) h2)
  | _, _, .within (hs := hs) (gs := gs) tw ws, v, w, hL, h => by
    suffices H : ∀ p : hs.Val × gs.Val, Fields.Takes (.cons .exported .none (.struct hs) gs) p w → AcceptsMembers a _ (KinMembers.entries (.within tw ws) p) w from H v h
    rintro ⟨x, v⟩ h
    obtain ⟨b1, b2, h2, rfl, h3⟩ := h
    rw [List.length_append] at hL
    exact acceptsMembers_append (kin_members_accepts tw x b1 (mul_le_of (by omega) hL) h3) (kin_members_accepts ws v b2 (mul_le_of (by omega) hL) h2)
  | _, _, .variant (f := f) (hs := hs) (gs := gs) h1 tw ws, v, w, hL, h => by
    suffices H : ∀ p : hs.Val × gs.Val, Fields.Takes (.cons .exported .variant (.struct hs) gs) p w → AcceptsMembers a _ (KinMembers.entries (.variant h1 tw ws) p) w from H v h
    rintro ⟨x, v⟩ h
    obtain ⟨b1, b2, h2, rfl, idx, b, ⟨_, h3⟩, rfl⟩ := h
    rw [List.length_append, List.length_cons] at hL
    exact .cons (.plain h1 (.one (kin_choice_accepts tw idx x b (mul_le_of (by omega) hL) h3))) (kin_members_accepts ws v b2 (mul_le_of (by omega) hL) h2)
theorem kin_choice_accepts : {b : Bytes} → {hs : Fields} → (tw : KinChoice a b hs) → (idx : UInt8) → (v : hs.Val) → (w : Bytes) → w.length * 16 ≤ maxAlloc →
    hs.TakesMember idx.toNat v w → AcceptsInner a b (tw.av v) (idx :: w)
  | _, _, .alias h1 h2 tw, idx, v, w, hL, h => .alias h1 (.plain h2 (.one (kin_choice_accepts tw idx v w hL h)))
  | _, _, .variant (hs := hs) h1 h2 tw, idx, v, w, hL, h => by
    obtain ⟨m, y, h3, h4, h5⟩ := kin_alts_accepts tw idx.toNat v w hL h
    have hi : idx.toNat < 128 := Nat.lt_of_lt_of_le (List.getElem?_eq_some_iff.1 h3).1 h2
    rw [KinChoice.av, h4]
    exact .variant (p := [idx]) h1 h3 (leb_single hi) h5
theorem kin_alts_accepts : {ns : List Bytes} → {hs : Fields} → (tw : KinAlts a ns hs) → (i : Nat) → (v : hs.Val) → (w : Bytes) → w.length * 16 ≤ maxAlloc →
    hs.TakesMember i v w → ∃ m y, ns[i]? = some m ∧ tw.av v = .slice [.basic .string m, y] ∧ Accepts a m y w
  | _, _, .nil, _, _, _, _, h => h.elim
  | _, _, .cons (n := n) (t := t) (tag := tag) (ns := ns) (hs := hs) h1 tw ht ws, 0, v, w, hL, h => by
    suffices H : ∀ p : Option t.Val × hs.Val, Fields.TakesMember (.cons .exported tag (.ptr t) hs) 0 p w → ∃ m y, (n :: ns)[0]? = some m ∧ KinAlts.av (.cons h1 tw ht ws) p = .slice [.basic .string m, y] ∧ Accepts a m y w from H v h
    rintro ⟨x, v⟩ h
    obtain ⟨_, _, z, e, h3⟩ := h
    have e : x = some z := e
    subst e
    exact ⟨n, tw.av z, rfl, rfl, .plain h1 (kin_body_accepts tw .decode (.inl rfl) z w hL h3)⟩
  | _, _, .cons (n := n) (t := t) (tag := tag) (ns := ns) (hs := hs) h1 tw ht ws, i + 1, v, w, hL, h => by
    suffices H : ∀ p : Option t.Val × hs.Val, Fields.TakesMember (.cons .exported tag (.ptr t) hs) (i + 1) p w → ∃ m y, (n :: ns)[i + 1]? = some m ∧ KinAlts.av (.cons h1 tw ht ws) p = .slice [.basic .string m, y] ∧ Accepts a m y w from H v h
    rintro ⟨x, v⟩ h
    obtain ⟨e, h3⟩ := h
    have e : x = none := e
    subst e
    obtain ⟨m, y, h4, h5, h6⟩ := kin_alts_accepts ws i v w hL h3
    exact ⟨m, y, by simpa using h4, h5, h6⟩
end

/-! ### The wire forms are accepted -/

theorem basics_ready : ∀ p ∈ abiBasics, resolve {} p.1 ≠ .panic ∧ (match resolve {} p.1 with
    | .val ts => ts.all fun e => !e.2.isExtension
    | _ => false) = true ∧ parseTypeName p.1 = some (p.1, false, false, false) := by decide +kernel
theorem chains_ready : ∀ p ∈ abiChains, resolve {} p.1 ≠ .panic ∧ (match resolve {} p.1 with
    | .val ts => ts.all fun e => !e.2.isExtension
    | _ => false) = true ∧ parseTypeName p.1 = some (p.1, false, false, false) := by decide +kernel

theorem builtin_taken {b : Bytes} {v : AV} {w : Bytes} (h : DecodesAs b v w) : TakenAs b v w := by
  have key (h1 : resolve {} b ≠ .panic) (h2 : (match resolve {} b with
      | .val ts => ts.all fun e => !e.2.isExtension
      | _ => false) = true) (h3 : parseTypeName b = some (b, false, false, false)) (h4 : v ≠ .nil) : TakenAs b v w := by
    have hd : NotDefined {} b := ⟨⟨by simp [NoStruct], by simp⟩, by simp⟩
    have hs := (parse_spelled ..).1 h3
    cases accepts_plain hs (C82_wire {} b (noShort_of h1) (noExtension_of h2) v w (.plain hs h4 (.one (.builtin hd h)))) with | one h => exact accepts_builtin hd h
  cases h with
  | plain h' =>
    cases h' with
    | basic h1 h2 h3 => obtain ⟨r1, r2, r3⟩ := basics_ready _ h1; exact key r1 r2 r3 nofun
    | chain h1 h2 h3 => obtain ⟨r1, r2, r3⟩ := chains_ready _ h1; exact key r1 r2 r3 nofun
  | bytes h1 h2 => exact key (by decide +kernel) (by decide +kernel) (by decide +kernel) nofun

theorem entries_eq {xs m : List (Bytes × AV)} (h : xs.map Prod.fst = m.map Prod.fst) (hn : (m.map Prod.fst).Nodup) (he : ∀ e ∈ xs, Entry m e.1 e.2) : xs = m := by
  have hl : xs.length = m.length := by simpa using congrArg List.length h
  refine List.ext_getElem hl fun i h1 h2 => ?_
  have hk : xs[i].1 = m[i].1 := by
    have := List.getElem_of_eq h (i := i) (by simpa using h1)
    simpa using this
  have hm : xs[i] ∈ m := by
    rcases he _ (List.getElem_mem h1) with h3 | ⟨h3, _⟩
    · exact mem_of_first h3
    · exact absurd hk.symm (h3 _ (List.getElem_mem h2))
  obtain ⟨j, h3, h4⟩ := List.getElem_of_mem hm
  have : j = i := (List.Nodup.getElem_inj_iff hn (hi := by simpa using h3) (hj := by simpa using h2)).1 (by simp [h4, hk])
  subst this
  exact h4.symm

theorem wire_optional {B : Bytes → AV → Bytes → Prop} {ex : Bool} {n b : Bytes} {arr ext : Bool} (hs : Spelled n b arr ext true) {x : AV} {w : Bytes} (h : Wire a B ex n x w) :
    x = .nil ∧ w = [0] ∨ ∃ bs, Body a B ex b arr x bs ∧ w = 1 :: bs := by
  cases h with
  | absent h1 => exact .inl ⟨rfl, rfl⟩
  | present h1 _ h3 => obtain ⟨rfl, rfl, _, _⟩ := spelled_unique hs h1; exact .inr ⟨_, h3, rfl⟩
  | plain h1 _ h2 => obtain ⟨_, _, _, h⟩ := spelled_unique hs h1; exact absurd h (by decide)

mutual
theorem wire_accepts {n : Bytes} {v : AV} {w : Bytes} : Wire a DecodesAs true n v w → Accepts a n v w
  | .absent h => .absent h
  | .present h _ h' => .present h (by decide) (wireBody_accepts h')
  | .plain h _ h' => .plain h (wireBody_accepts h')
theorem wireBody_accepts {b : Bytes} {arr : Bool} {v : AV} {w : Bytes} : Body a DecodesAs true b arr v w → AcceptsBody a b arr v w
  | .one h => .one (wireInner_accepts h)
  | .many h h' => .many (minLeb_any h.1 (by have := h.2; omega)) (by have := h.2; omega) (by have := h.2; simp only [maxAlloc]; omega) (wireItems_accepts h')
theorem wireItems_accepts {b : Bytes} {xs : List AV} {w : Bytes} : Items a DecodesAs true b xs w → AcceptsItems a b xs w
  | .nil => .nil
  | .cons h h' => .cons (wireInner_accepts h) (wireItems_accepts h')
theorem wireInner_accepts {b : Bytes} {v : AV} {w : Bytes} : Inner a DecodesAs true b v w → AcceptsInner a b v w
  | .alias h h' => .alias h (wire_accepts h')
  | .struct (m := m) h h' he => by
    obtain ⟨e1, e2⟩ := he rfl
    obtain ⟨xs, h1, h2⟩ := wireMembers_accepts h'
    have := entries_eq ((acceptsMembers_names h1).trans e1.symm) e2 h2
    subst this
    exact .struct h h1 ((gathers_nodup e2 _).2 rfl)
  | .variant (pre := pre) h h1 _ h2 h3 => .variant (i := pre.length) h (by rw [h1]; simp) (minLeb_any h2.1 (by have := h2.2; omega)) (wire_accepts h3)
  | .builtin h h' => .builtin h (builtin_taken h')
  | .hollow h h1 h' => .hollow h h1 (builtin_taken h')
theorem wireMembers_accepts {fs : List AbiField} {m : List (Bytes × AV)} {w : Bytes} : Members a DecodesAs true fs m w → ∃ xs, AcceptsMembers a fs xs w ∧ ∀ e ∈ xs, Entry m e.1 e.2
  | .nil => ⟨[], .nil, by simp⟩
  | .cons (f := f) (x := x) h h1 h2 => by
    obtain ⟨xs, h3, h4⟩ := wireMembers_accepts h2
    refine ⟨(f.name, x) :: xs, .cons (wire_accepts h1) h3, fun e he => ?_⟩
    rcases List.mem_cons.1 he with rfl | he
    · exact h
    · exact h4 e he
end

/-! ### What is a wire form for Abi.Decode, Decode accepts -/

theorem wire_alias {B : Bytes → AV → Bytes → Prop} {ex : Bool} {b : Bytes} {ty : AbiType} (hb : IsAlias a b ty) {x : AV} {w : Bytes} (h : Inner a B ex b x w) : Wire a B ex ty.type x w := by
  cases h with
  | «alias» h1 h2 => rw [isAlias_unique hb h1]; exact h2
  | struct h1 _ _ => obtain ⟨s, hs⟩ := fieldsOf_struct h1; exact (noStruct_isStruct hb.1.1 hs).elim
  | variant h1 _ _ _ => exact absurd h1.2.1 (hb.1.2 _ (mem_of_first h1.2))
  | builtin h1 _ => exact absurd hb.2.1 (h1.2 ty (mem_of_first hb.2))
  | hollow h1 _ _ => exact (noStruct_isStruct hb.1.1 h1).elim

theorem wire_fields {B : Bytes → AV → Bytes → Prop} {b : Bytes} {f : AbiField} {fs : List AbiField} (hb : FieldsOf a b (f :: fs)) {x : AV} {w : Bytes} (h : Inner a B true b x w) :
    ∃ m, Members a B true (f :: fs) m w ∧ m.map Prod.fst = (f :: fs).map AbiField.name ∧ (m.map Prod.fst).Nodup ∧ x = .map m := by
  obtain ⟨s, hs⟩ := fieldsOf_struct hb
  cases h with
  | «alias» h1 h2 => exact (noStruct_isStruct h1.1.1 hs).elim
  | struct h1 h2 h3 => rw [fieldsOf_unique hb h1]; exact ⟨_, h2, (h3 rfl).1, (h3 rfl).2, rfl⟩
  | variant h1 _ _ _ => exact (noStruct_isStruct h1.1 hs).elim
  | builtin h1 _ => exact (noStruct_isStruct h1.1.1 hs).elim
  | hollow _ h2 _ => exact absurd (h2 _ hb) (by simp)

theorem wire_variant {B : Bytes → AV → Bytes → Prop} {ex : Bool} {b : Bytes} {k : AbiVariant} (hk : IsVariant a b k) {x : AV} {w : Bytes} (h : Inner a B ex b x w) :
    ∃ (i : Nat) (m : Bytes) (y : AV) (p bs : Bytes), k.types[i]? = some m ∧ Count p i ∧ Wire a B ex m y bs ∧ x = .slice [.basic .string m, y] ∧ w = p ++ bs := by
  have hm := mem_of_first hk.2
  cases h with
  | «alias» h _ => exact absurd hk.2.1 (h.1.2 k hm)
  | struct h _ _ => obtain ⟨s, hs⟩ := fieldsOf_struct h; exact (noStruct_isStruct hk.1 hs).elim
  | variant h h1 _ h2 h3 => cases isVariant_unique hk h; exact ⟨_, _, _, _, _, by rw [h1]; simp, h2, h3, rfl, rfl⟩
  | builtin h _ => exact absurd hk.2.1 (h.1.2 k hm)
  | hollow h _ _ => exact (noStruct_isStruct hk.1 h).elim

theorem members_split {B : Bytes → AV → Bytes → Prop} {ex : Bool} {m : List (Bytes × AV)} : ∀ {fs gs : List AbiField} {w : Bytes}, Members a B ex (fs ++ gs) m w →
    ∃ w1 w2, Members a B ex fs m w1 ∧ Members a B ex gs m w2 ∧ w = w1 ++ w2
  | [], _, w, h => ⟨[], w, .nil, h, rfl⟩
  | f :: fs, gs, _, .cons (b1 := b1) h h1 h2 => by
    obtain ⟨w1, w2, h3, h4, rfl⟩ := members_split h2
    exact ⟨b1 ++ w1, w2, .cons h h1 h3, h4, by rw [List.append_assoc]⟩

theorem wireItems_each {α : Type} {R : α → Bytes → Prop} {f : α → AV} {b : Bytes} {L : Nat} (h : ∀ x w, w.length ≤ L → Inner a DecodesAs true b x w → ∃ v, f v = x ∧ R v w) :
    ∀ {xs : List AV} {w : Bytes}, w.length ≤ L → Items a DecodesAs true b xs w → ∃ vs : List α, vs.map f = xs ∧ Each R vs w
  | _, _, _, .nil => ⟨[], rfl, .nil⟩
  | _, _, hw, .cons h1 h2 => by
    rw [List.length_append] at hw
    obtain ⟨v, e1, h1⟩ := h _ _ (by omega) h1
    obtain ⟨vs, e2, h2⟩ := wireItems_each h (by omega) h2
    exact ⟨v :: vs, by rw [List.map_cons, e1, e2], .cons h1 h2⟩

theorem entry_cons {m xs : List (Bytes × AV)} {k : Bytes} {x : AV} (h : Entry m k x) (h' : ∀ e ∈ xs, Entry m e.1 e.2) : ∀ e ∈ (k, x) :: xs, Entry m e.1 e.2 := fun e he => by
  rcases List.mem_cons.1 he with rfl | he
  · exact h
  · exact h' e he

theorem kin_nilable : {ns : List Bytes} → {hs : Fields} → KinAlts a ns hs → hs.NilableBut none ∧ ∀ i, hs.NilableBut (some i)
  | _, _, .nil => ⟨trivial, fun _ => trivial⟩
  | _, _, .cons _ _ _ ws => ⟨⟨trivial, (kin_nilable ws).1⟩, fun i => match i with
    | 0 => (kin_nilable ws).1
    | i + 1 => ⟨trivial, (kin_nilable ws).2 i⟩⟩

mutual
theorem kin_inner_takes : {b : Bytes} → {t : Ty} → (tw : KinInner a b t) → (m : Mode) → m = .decode ∨ m = .elem → (x : AV) → (w : Bytes) → w.length * t.widest ≤ maxAlloc →
    Inner a DecodesAs true b x w → ∃ v, tw.av v = x ∧ t.Takes m v w
  | _, _, .leaf tw, m, hm, x, w, hL, h => inner_takes tw m hm x w hL (wireInner_accepts h)
  | _, _, .alias h1 h2 tw, m, hm, x, w, hL, h => kin_body_takes tw m hm x w hL (wire_plain h2 (wire_alias h1 h))
  | _, _, .struct (gs := gs) h1 h2 tw, m, hm, x, w, hL, h => by
    obtain ⟨y, h3, h4, h5, rfl⟩ := wire_fields h1 h
    obtain ⟨v, h6, h7⟩ := kin_members_takes tw y w hL h3
    have := entries_eq ((kin_names tw v).trans h4.symm) h5 h6
    subst this
    exact ⟨v, rfl, by rcases hm with rfl | rfl <;> exact h7⟩
theorem kin_body_takes : {b : Bytes} → {arr : Bool} → {t : Ty} → (tw : KinBody a b arr t) → (m : Mode) → m = .decode ∨ m = .elem → (x : AV) → (w : Bytes) → w.length * t.widest ≤ maxAlloc →
    Body a DecodesAs true b arr x w → ∃ v, tw.av v = x ∧ t.Takes m v w
  | _, _, _, .one tw, m, hm, x, w, hL, h => by
    cases h with | one h => exact kin_inner_takes tw m hm x w hL h
  | _, _, _, .many (t := t) tw, m, hm, _, _, hL, h => by
    obtain ⟨⟩ | ⟨h0, h4⟩ := h
    rename_i p bs
    rw [List.length_append] at hL
    have h1 := minLeb_any h0.1 (by have := h0.2; omega)
    have h2 := Nat.lt_trans h0.2 (show 2 ^ 28 < 2 ^ 63 by decide)
    have h5 := acceptsItems_length (wireItems_accepts h4)
    obtain ⟨vs, rfl, h6⟩ := wireItems_each (R := t.Takes .elem) (f := fun x => tw.av x) (L := bs.length)
      (fun x w hw h => kin_inner_takes tw .elem (.inr rfl) x w (Nat.le_trans (Nat.mul_le_mul (by omega) (Nat.le_max_right t.size _)) hL) h) (Nat.le_refl _) h4
    rw [List.length_map] at h1 h2 h5
    obtain ⟨o, h7, rfl⟩ := held_slice vs
    exact ⟨o, rfl, by rcases hm with rfl | rfl <;> simp, h7, p, bs, h1, h2, Nat.le_trans (Nat.mul_le_mul (by omega) (Nat.le_max_left _ t.widest)) hL, h6, rfl⟩
  | _, _, _, .pointers (t := t) tw, m, hm, _, _, hL, h => by
    obtain ⟨⟩ | ⟨h0, h4⟩ := h
    rename_i p bs
    rw [List.length_append] at hL
    have h1 := minLeb_any h0.1 (by have := h0.2; omega)
    have h2 := Nat.lt_trans h0.2 (show 2 ^ 28 < 2 ^ 63 by decide)
    have h5 := acceptsItems_length (wireItems_accepts h4)
    obtain ⟨vs, rfl, h6⟩ := wireItems_each (α := Option t.Val) (R := fun x w => (Ty.ptr t).Takes .elem x w) (f := fun x : Option t.Val => match x with
      | none => .nil
      | some x => tw.av x) (L := bs.length)
      (fun x w hw h => by
        obtain ⟨v, e, h⟩ := kin_inner_takes tw .decode (.inl rfl) x w (Nat.le_trans (Nat.mul_le_mul (by omega) (Nat.le_max_right (Ty.ptr t).size _)) hL) h
        exact ⟨(some v : Option t.Val), e, v, rfl, h⟩) (Nat.le_refl _) h4
    rw [List.length_map] at h1 h2 h5
    obtain ⟨o, h7, rfl⟩ := held_slice vs
    exact ⟨o, rfl, by rcases hm with rfl | rfl <;> simp, h7, p, bs, h1, h2, Nat.le_trans (Nat.mul_le_mul (Nat.le_trans h5 (Nat.le_add_left _ _)) (Nat.le_max_left _ (Ty.ptr t).widest)) hL, h6, rfl⟩
theorem kin_members_takes : {fs : List AbiField} → {gs : Fields} → (tw : KinMembers a fs gs) → (m : List (Bytes × AV)) → (w : Bytes) → w.length * gs.widest ≤ maxAlloc →
    Members a DecodesAs true fs m w → ∃ v, (∀ e ∈ tw.entries v, Entry m e.1 e.2) ∧ gs.Takes v w
  | _, _, .nil, _, _, hL, h => by
    cases h
    exact ⟨(), nofun, rfl⟩
  | _, _, .plain (f := f) (t := t) (gs := gs) h1 tw ws, _, _, hL, h => by
    obtain ⟨⟩ | ⟨h0, h2, h3⟩ := h
    rename_i b1 b2
    rw [List.length_append] at hL
    obtain ⟨v, rfl, h4⟩ := kin_body_takes tw .elem (.inr rfl) _ b1 (Nat.le_trans (Nat.mul_le_mul (by omega) (Nat.le_max_left _ gs.widest)) hL) (wire_plain h1 h2)
    obtain ⟨vs, h6, h5⟩ := kin_members_takes ws _ b2 (Nat.le_trans (Nat.mul_le_mul (by omega) (Nat.le_max_right t.widest _)) hL) h3
    exact ⟨((v, vs) : t.Val × gs.Val), entry_cons h0 h6, b1, b2, h5, rfl, h4⟩
  | _, _, .pointer (f := f) (t := t) (gs := gs) h1 tw ws, _, _, hL, h => by
    obtain ⟨⟩ | ⟨h0, h2, h3⟩ := h
    rename_i b1 b2
    rw [List.length_append] at hL
    obtain ⟨v, rfl, h4⟩ := kin_body_takes tw .decode (.inl rfl) _ b1 (Nat.le_trans (Nat.mul_le_mul (by omega) (Nat.le_max_left _ gs.widest)) hL) (wire_plain h1 h2)
    obtain ⟨vs, h6, h5⟩ := kin_members_takes ws _ b2 (Nat.le_trans (Nat.mul_le_mul (by omega) (Nat.le_max_right t.widest _)) hL) h3
    exact ⟨((some v, vs) : Option t.Val × gs.Val), entry_cons h0 h6, b1, b2, h5, rfl, v, rfl, h4⟩
  | _, _, .optional (f := f) (t := t) (gs := gs) h1 tw ws, _, _, hL, h => by
    obtain ⟨⟩ | ⟨h0, h2, h3⟩ := h
    rename_i b1 b2
    rw [List.length_append] at hL
    obtain ⟨vs, h8, h5⟩ := kin_members_takes ws _ b2 (Nat.le_trans (Nat.mul_le_mul (by omega) (Nat.le_max_right t.widest _)) hL) h3
    rcases wire_optional h1 h2 with ⟨rfl, rfl⟩ | ⟨bs, h6, rfl⟩
    · exact ⟨((none, vs) : Option t.Val × gs.Val), entry_cons h0 h8, [0], b2, h5, rfl, .inl ⟨rfl, rfl⟩⟩
    · rw [List.length_cons] at hL
      obtain ⟨v, rfl, h7⟩ := kin_body_takes tw .decode (.inl rfl) _ bs (Nat.le_trans (Nat.mul_le_mul (by omega) (Nat.le_max_left _ gs.widest)) hL) h6
      exact ⟨((some v, vs) : Option t.Val × gs.Val), entry_cons h0 h8, 1 :: bs, b2, h5, rfl, .inr ⟨1, bs, by decide, ⟨v, rfl, h7⟩, rfl⟩⟩
  | _, _, .within (hs := hs) (gs := gs) tw ws, _, _, hL, h => by
    obtain ⟨b1, b2, h1, h2, rfl⟩ := members_split h
    rw [List.length_append] at hL
    obtain ⟨v, h6, h4⟩ := kin_members_takes tw _ b1 (Nat.le_trans (Nat.mul_le_mul (by omega) (Nat.le_max_left _ gs.widest)) hL) h1
    obtain ⟨vs, h7, h5⟩ := kin_members_takes ws _ b2 (Nat.le_trans (Nat.mul_le_mul (by omega) (Nat.le_max_right hs.widest _)) hL) h2
    exact ⟨((v, vs) : hs.Val × gs.Val), fun e he => (List.mem_append.1 he).elim (h6 e) (h7 e), b1, b2, h5, rfl, h4⟩
  | _, _, .variant (f := f) (hs := hs) (gs := gs) h1 tw ws, _, _, hL, h => by
    obtain ⟨⟩ | ⟨h0, h2, h3⟩ := h
    rename_i b1 b2
    rw [List.length_append] at hL
    cases wire_plain h1 h2 with | one h2 =>
    obtain ⟨v, idx, b, rfl, h4, h6, rfl⟩ := kin_choice_takes tw _ b1 (Nat.le_trans (Nat.mul_le_mul (by omega) (Nat.le_max_left hs.widest gs.widest)) hL) h2
    obtain ⟨vs, h7, h5⟩ := kin_members_takes ws _ b2 (Nat.le_trans (Nat.mul_le_mul (by omega) (Nat.le_max_right hs.widest _)) hL) h3
    exact ⟨((v, vs) : hs.Val × gs.Val), entry_cons h0 h7, idx :: b, b2, h5, rfl, idx, b, ⟨h4, h6⟩, rfl⟩
theorem kin_choice_takes : {b : Bytes} → {hs : Fields} → (tw : KinChoice a b hs) → (x : AV) → (w : Bytes) → w.length * hs.widest ≤ maxAlloc →
    Inner a DecodesAs true b x w → ∃ (v : hs.Val) (idx : UInt8) (bs : Bytes), tw.av v = x ∧ hs.NilableBut (some idx.toNat) ∧ hs.TakesMember idx.toNat v bs ∧ w = idx :: bs
  | _, _, .alias h1 h2 tw, x, w, hL, h => by
    cases wire_plain h2 (wire_alias h1 h) with | one h => exact kin_choice_takes tw x w hL h
  | _, _, .variant h1 h2 tw, x, w, hL, h => by
    obtain ⟨i, m, y, p, bs, h3, h4, h5, rfl, rfl⟩ := wire_variant h1 h
    have hi : i < 128 := Nat.lt_of_lt_of_le (List.getElem?_eq_some_iff.1 h3).1 h2
    obtain ⟨idx, rfl, rfl⟩ := minLeb_single h4.1 hi
    obtain ⟨v, h6, h7⟩ := kin_alts_takes tw idx.toNat m y bs (Nat.le_trans (Nat.mul_le_mul_right _ (by simp)) hL) h3 h5
    exact ⟨v, idx, bs, h6, (kin_nilable tw).2 _, h7, rfl⟩
theorem kin_alts_takes : {ns : List Bytes} → {hs : Fields} → (tw : KinAlts a ns hs) → (i : Nat) → (m : Bytes) → (y : AV) → (w : Bytes) → w.length * hs.widest ≤ maxAlloc → ns[i]? = some m →
    Wire a DecodesAs true m y w → ∃ v, tw.av v = .slice [.basic .string m, y] ∧ hs.TakesMember i v w
  | _, _, .nil, _, _, _, _, _, h, _ => by simp at h
  | _, _, .cons (n := n) (t := t) (hs := hs) h1 tw _ ws, 0, m, y, w, hL, h, h' => by
    have e : n = m := by simpa using h
    subst e
    obtain ⟨v, rfl, h2⟩ := kin_body_takes tw .decode (.inl rfl) y w (Nat.le_trans (Nat.mul_le_mul_left _ (Nat.le_max_left t.widest hs.widest)) hL) (wire_plain h1 h')
    exact ⟨((some v, hs.zero) : Option t.Val × hs.Val), rfl, rfl, rfl, v, rfl, h2⟩
  | _, _, .cons (t := t) (hs := hs) h1 tw _ ws, i + 1, m, y, w, hL, h, h' => by
    obtain ⟨v, h2, h3⟩ := kin_alts_takes ws i m y w (Nat.le_trans (Nat.mul_le_mul_left _ (Nat.le_max_right t.widest hs.widest)) hL) (by simpa using h) h'
    exact ⟨((none, v) : Option t.Val × hs.Val), h2, rfl, h3⟩
end

mutual
theorem wire_mono {B B' : Bytes → AV → Bytes → Prop} (hB : ∀ b v w, B b v w → B' b v w) {ex : Bool} {n : Bytes} {v : AV} {w : Bytes} : Wire a B ex n v w → Wire a B' ex n v w
  | .absent h => .absent h
  | .present h h1 h' => .present h h1 (wireBody_mono hB h')
  | .plain h h1 h' => .plain h h1 (wireBody_mono hB h')
theorem wireBody_mono {B B' : Bytes → AV → Bytes → Prop} (hB : ∀ b v w, B b v w → B' b v w) {ex : Bool} {b : Bytes} {arr : Bool} {v : AV} {w : Bytes} : Body a B ex b arr v w → Body a B' ex b arr v w
  | .one h => .one (wireInner_mono hB h)
  | .many h h' => .many h (wireItems_mono hB h')
theorem wireItems_mono {B B' : Bytes → AV → Bytes → Prop} (hB : ∀ b v w, B b v w → B' b v w) {ex : Bool} {b : Bytes} {xs : List AV} {w : Bytes} : Items a B ex b xs w → Items a B' ex b xs w
  | .nil => .nil
  | .cons h h' => .cons (wireInner_mono hB h) (wireItems_mono hB h')
theorem wireInner_mono {B B' : Bytes → AV → Bytes → Prop} (hB : ∀ b v w, B b v w → B' b v w) {ex : Bool} {b : Bytes} {v : AV} {w : Bytes} : Inner a B ex b v w → Inner a B' ex b v w
  | .alias h h' => .alias h (wire_mono hB h')
  | .struct h h' he => .struct h (wireMembers_mono hB h') he
  | .variant h h1 h2 h3 h4 => .variant h h1 h2 h3 (wire_mono hB h4)
  | .builtin h h' => .builtin h (hB _ _ _ h')
  | .hollow h h1 h' => .hollow h h1 (hB _ _ _ h')
theorem wireMembers_mono {B B' : Bytes → AV → Bytes → Prop} (hB : ∀ b v w, B b v w → B' b v w) {ex : Bool} {fs : List AbiField} {m : List (Bytes × AV)} {w : Bytes} : Members a B ex fs m w → Members a B' ex fs m w
  | .nil => .nil
  | .cons h h1 h2 => .cons h (wire_mono hB h1) (wireMembers_mono hB h2)
end

/-! ### The Go types -/

mutual
theorem kin_inner_strait : {b : Bytes} → {t : Ty} → KinInner a b t → t.Strait
  | _, _, .leaf tw => (inner_go tw).1
  | _, _, .alias _ _ tw => kin_body_strait tw
  | _, _, .struct _ _ tw => kin_members_strait tw
theorem kin_body_strait : {b : Bytes} → {arr : Bool} → {t : Ty} → KinBody a b arr t → t.Strait
  | _, _, _, .one tw => kin_inner_strait tw
  | _, _, _, .many tw => by
    have h := kin_inner_strait tw
    exact h
  | _, _, _, .pointers tw => by
    have h := kin_inner_strait tw
    exact h
theorem kin_members_strait : {fs : List AbiField} → {gs : Fields} → KinMembers a fs gs → gs.Strait
  | _, _, .nil => trivial
  | _, _, .plain _ tw ws => let h := kin_body_strait tw; ⟨nofun, h, kin_members_strait ws⟩
  | _, _, .pointer _ tw ws => let h := kin_body_strait tw; ⟨nofun, h, kin_members_strait ws⟩
  | _, _, .optional _ tw ws => let h := kin_body_strait tw; ⟨nofun, h, kin_members_strait ws⟩
  | _, _, .within tw ws => let h := kin_members_strait tw; ⟨nofun, h, kin_members_strait ws⟩
  | _, _, .variant _ tw ws => let h := kin_choice_strait tw; ⟨nofun, h, kin_members_strait ws⟩
theorem kin_choice_strait : {b : Bytes} → {hs : Fields} → KinChoice a b hs → hs.Strait
  | _, _, .alias _ _ tw => kin_choice_strait tw
  | _, _, .variant _ _ tw => kin_alts_strait tw
theorem kin_alts_strait : {ns : List Bytes} → {hs : Fields} → KinAlts a ns hs → hs.Strait
  | _, _, .nil => trivial
  | _, _, .cons _ tw ht ws => let h := kin_body_strait tw; ⟨ht, h, kin_alts_strait ws⟩
end

end Verif
