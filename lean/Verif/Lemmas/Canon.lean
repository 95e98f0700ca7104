import Verif.Lemmas.Fault
import Verif.Lemmas.TakesReflect
namespace Verif

/-! ## What has no fault has lengths that Go can have -/

theorem small_of_fault {n : Nat} (h : lengthFault n = none) : n < 2 ^ 28 := by
  unfold lengthFault at h
  split at h
  · assumption
  · cases h

theorem or_none' {f g : Option Fault} (h : f.or g = none) : f = none ∧ g = none := by
  cases f <;> simp_all

theorem each_none {α : Type} {fa : α → Option Fault} {xs : List α} (h : xs.findSome? fa = none) (x : α) (hx : x ∈ xs) : fa x = none :=
  List.findSome?_eq_none_iff.1 h x hx

theorem chain_real (c : ChainTy) (v : c.Val) (h : c.fault v = none) : c.Real v := by
  have act : ∀ a : Action, a.fault = none → a.GoLens := fun a h => by
    have h := or_none' h
    have h1 := small_of_fault h.1
    have h2 := small_of_fault h.2
    exact ⟨by omega, by omega⟩
  cases c
  case action => exact act v h
  case blob =>
    have := small_of_fault (n := (Option.getD (α := Bytes) v []).length) h
    show (Option.getD (α := Bytes) v []).length < 2 ^ 63
    omega
  case bytes =>
    have := small_of_fault (n := (Option.getD (α := Bytes) v []).length) h
    show (Option.getD (α := Bytes) v []).length < 2 ^ 63
    omega
  case transactionExtension =>
    have := small_of_fault (n := (TxExtension.data v).length) h
    show (TxExtension.data v).length < 2 ^ 63
    omega
  case transaction =>
    obtain ⟨h0, h⟩ := or_none' h
    obtain ⟨h1, h⟩ := or_none' h
    obtain ⟨h2, h⟩ := or_none' h
    obtain ⟨h3, h⟩ := or_none' h
    obtain ⟨h4, h⟩ := or_none' h
    obtain ⟨h5, h6⟩ := or_none' h
    have h1 := small_of_fault h1
    have h3 := small_of_fault h3
    have h5 := small_of_fault h5
    exact ⟨by omega, by omega, by omega, fun a ha => act a (each_none h2 a ha), fun a ha => act a (each_none h4 a ha), fun x hx => by
      have := small_of_fault (each_none h6 x hx)
      omega⟩
  all_goals trivial

mutual
theorem real_zero : (t : Ty) → t.Real t.zero
  | .basic b => by cases b <;> first | trivial | exact Nat.two_pow_pos 63
  | .named _ => trivial
  | .unsupported => trivial
  | .bytes => Nat.two_pow_pos 63
  | .chain c => by
    refine chain_real c c.zero ?_
    cases c <;> rfl
  | .ptr t => fun x h => by cases h
  | .slice t => ⟨Nat.two_pow_pos 63, fun x h => by cases h⟩
  | .array n t => fun x h => by
    rw [List.eq_of_mem_replicate h]
    exact real_zero t
  | .map k e => ⟨Nat.two_pow_pos 63, fun x h => by cases h⟩
  | .struct fs => real_zeros fs
  | .ref _ _ _ => trivial
theorem real_zeros : (fs : Fields) → fs.Real fs.zero
  | .nil => trivial
  | .cons _ _ t fs => ⟨real_zero t, real_zeros fs⟩
end

mutual
theorem real_of_fault : (t : Ty) → (v : t.Val) → t.fault v = none → t.Real v
  | .basic b, v, h => by
    cases b
    case string =>
      have := small_of_fault (n := List.length (α := UInt8) v) h
      show List.length (α := UInt8) v < 2 ^ 63
      omega
    all_goals trivial
  | .named _, _, _ => trivial
  | .unsupported, _, _ => trivial
  | .bytes, v, h => by
    have := small_of_fault (n := (Option.getD (α := Bytes) v []).length) h
    show (Option.getD (α := Bytes) v []).length < 2 ^ 63
    omega
  | .chain c, v, h => chain_real c v h
  | .ptr t, v, h => by
    match v, h with
    | some x, h => exact fun y hy => by cases hy; exact real_of_fault t x h
  | .slice t, v, h => by
    have h := or_none' h
    have := small_of_fault h.1
    exact ⟨by omega, fun x hx => real_of_fault t x (each_none h.2 x hx)⟩
  | .array _ t, v, h => fun x hx => real_of_fault t x (each_none h x hx)
  | .map k e, v, h => by
    have h := or_none' h
    have := small_of_fault h.1
    exact ⟨by omega, fun x hx => by
      have h := or_none' (each_none h.2 x hx)
      exact ⟨real_of_fault k x.1 h.1, real_of_fault e x.2 h.2⟩⟩
  | .struct fs, v, h => reals_of_fault fs v h
  | .ref _ _ _, _, _ => trivial
theorem reals_of_fault : (fs : Fields) → (v : fs.Val) → fs.fault v = none → fs.Real v
  | .nil, _, _ => trivial
  | .cons vis tag t fs, v, h => by
    have h := or_none' h
    refine ⟨?_, reals_of_fault fs _ h.2⟩
    have h := h.1
    split at h
    · rename_i hz
      rw [hz.2]
      exact real_zero t
    · split at h
      · exact real_of_fault t _ h
      · cases h
end

/-! ## The written form of a value that was read -/

/-- There is a wire form, it is accepted, and it is no longer. -/
def Canon (L T : Bytes → Prop) (w : Bytes) : Prop := ∃ bs, L bs ∧ T bs ∧ bs.length ≤ w.length

theorem minLeb_any {m : Bytes} {n : Nat} (h : MinLeb m n) (hn : n < 2 ^ 64) : AnyLeb m n := by
  refine ⟨h.1, ?_, h.2.1, hn⟩
  rcases (minLeb_bounds m n h).2.1 with h1 | h1
  · omega
  · by_contra hl
    have : 128 ^ 10 ≤ 128 ^ (m.length - 1) := Nat.pow_le_pow_right (by decide) (by omega)
    have : (128 : Nat) ^ 10 = 2 ^ 70 := by decide
    have : (2 : Nat) ^ 64 < 2 ^ 70 := by decide
    omega

theorem anyLeb_pos {lb : Bytes} {n : Nat} (h : AnyLeb lb n) : 1 ≤ lb.length := by
  obtain ⟨i, l, e, _⟩ := h.1
  rw [e]; simp

theorem minLeb_short {m lb : Bytes} {a b : Nat} (h : MinLeb m a) (hb : AnyLeb lb b) (hab : a ≤ b) : m.length ≤ lb.length := by
  have hp := anyLeb_pos hb
  rcases (minLeb_bounds m a h).2.1 with h1 | h1
  · omega
  · by_contra hl
    have h2 : b < 128 ^ lb.length := hb.2.2.1 ▸ lebValue_lt lb
    have : 128 ^ lb.length ≤ 128 ^ (m.length - 1) := Nat.pow_le_pow_right (by decide) (by omega)
    omega

theorem canon_len {n b : Nat} {lb : Bytes} (hn : lengthFault n = none) (hb : AnyLeb lb b) (h : n ≤ b) : Canon (fun m => MinLeb m n) (fun m => AnyLeb m n) lb := by
  have hs := small_of_fault hn
  have := varuintBytes_minLeb n hs
  exact ⟨_, this, minLeb_any this (by omega), minLeb_short this hb h⟩

theorem canon_count {n b : Nat} {lb : Bytes} (hn : lengthFault n = none) (hb : AnyCount lb b) (h : n ≤ b) : Canon (fun m => MinLeb m n) (fun m => AnyCount m n) lb := by
  have hs := small_of_fault hn
  have hm := varuintBytes_minLeb n hs
  refine ⟨_, hm, .inl ⟨minLeb_any hm (by omega), by omega⟩, ?_⟩
  rcases hb with ⟨hb, _⟩ | ⟨hb, k, hk, _⟩
  · exact minLeb_short hm hb h
  · exact minLeb_short hm hk (by omega)

theorem canon_sized {b w : Bytes} (hn : lengthFault b.length = none) (h : Sized w b) : Canon (fun w => Prefixed w b) (fun w => Sized w b) w := by
  obtain ⟨lb, h1, h2, rfl⟩ := h
  obtain ⟨m, g1, g2, g3⟩ := canon_len hn h1 (Nat.le_refl _)
  exact ⟨m ++ b, ⟨m, g1, rfl⟩, ⟨m, g2, h2, rfl⟩, by simp; omega⟩

theorem canon_each {α : Type} {L T : α → Bytes → Prop} {xs : List α} {es : Bytes} (h : Each T xs es) (hx : ∀ x ∈ xs, ∀ w, T x w → Canon (L x) (T x) w) : Canon (Each L xs) (Each T xs) es := by
  induction h with
  | nil => exact ⟨[], .nil, .nil, Nat.le_refl _⟩
  | @cons x xs b bs h1 h2 ih =>
    obtain ⟨c, g1, g2, g3⟩ := hx x (by simp) b h1
    obtain ⟨d, g4, g5, g6⟩ := ih fun y hy => hx y (by simp [hy])
    exact ⟨c ++ d, .cons g1 g4, .cons g2 g5, by simp; omega⟩

theorem canon_counted {α : Type} {size : Nat} {L T : α → Bytes → Prop} {xs : List α} {w : Bytes} (hn : lengthFault xs.length = none) (h : SizedEach size T xs w)
    (hx : ∀ x ∈ xs, ∀ w, T x w → Canon (L x) (T x) w) : Canon (Counted L xs) (SizedEach size T xs) w := by
  obtain ⟨lb, es, h1, h2, h3, h4, rfl⟩ := h
  obtain ⟨m, g1, g2, g3⟩ := canon_len hn h1 (Nat.le_refl _)
  obtain ⟨d, g4, g5, g6⟩ := canon_each h4 hx
  exact ⟨m ++ d, ⟨m, d, g1, g4, rfl⟩, ⟨m, d, g2, h2, h3, g5, rfl⟩, by simp; omega⟩

/-- The entries that remain, and their bytes -/
theorem each_split {α : Type} {T : α → Bytes → Prop} {pre post : List α} {x : α} {es : Bytes} (h : Each T (pre ++ x :: post) es) :
    ∃ e1 b e2, es = e1 ++ b ++ e2 ∧ T x b ∧ Each T (pre ++ post) (e1 ++ e2) := by
  induction pre generalizing es with
  | nil =>
    cases h with
    | @cons _ _ b bs h1 h2 => exact ⟨[], b, bs, rfl, h1, h2⟩
  | cons y pre ih =>
    cases h with
    | @cons _ _ b bs h1 h2 =>
      obtain ⟨e1, c, e2, rfl, g2, g3⟩ := ih h2
      exact ⟨b ++ e1, c, e2, by simp, g2, by rw [List.append_assoc]; exact .cons h1 g3⟩

theorem each_subset {α β : Type} {T : α × β → Bytes → Prop} (xs ys : List (α × β)) (es : Bytes) (h : Each T ys es) (hn : (xs.map Prod.fst).Nodup) (hm : ∀ x ∈ xs, x ∈ ys) :
    xs.length ≤ ys.length ∧ ∃ es', Each T xs es' ∧ es'.length ≤ es.length := by
  induction xs generalizing ys es with
  | nil => exact ⟨Nat.zero_le _, [], .nil, Nat.zero_le _⟩
  | cons x xs ih =>
    obtain ⟨pre, post, rfl⟩ := List.append_of_mem (hm x (by simp))
    obtain ⟨e1, b, e2, rfl, hb, hr⟩ := each_split h
    rw [List.map_cons, List.nodup_cons] at hn
    obtain ⟨h1, es', h2, h3⟩ := ih (pre ++ post) (e1 ++ e2) hr hn.2 fun y hy => by
      have hy' := hm y (by simp [hy])
      rw [List.mem_append, List.mem_cons] at hy'
      rcases hy' with h | rfl | h
      · simp [h]
      · exact absurd (List.mem_map_of_mem hy) hn.1
      · simp [h]
    refine ⟨by simp at h1 ⊢; omega, b ++ es', .cons hb h2, ?_⟩
    simp at h3 ⊢
    omega

theorem eraseDups_self {α : Type} [DecidableEq α] : (l : List α) → l.Nodup → l.eraseDups = l
  | [], _ => rfl
  | a :: l, h => by
    have h := List.nodup_cons.1 h
    have : (l.filter fun b => !b == a) = l := List.filter_eq_self.2 fun b hb => by simp; rintro rfl; exact h.1 hb
    rw [List.eraseDups_cons, this, eraseDups_self l h.2]

theorem gathers_self {α β : Type} [DecidableEq α] (ys xs : List (α × β)) (h : Gathers ys xs) : Gathers xs xs ∧ (xs.map Prod.fst).Nodup ∧ ∀ x ∈ xs, x ∈ ys := by
  have hs := (gathers_iff ys xs).1 h
  have hn : (xs.map Prod.fst).Nodup := hs ▸ (stores_gathers ys).2
  refine ⟨⟨?_, fun k x => ⟨fun hm => ?_, fun ⟨pre, post, e, _⟩ => by rw [e]; simp⟩⟩, hn, fun x hx => ?_⟩
  · exact (eraseDups_self _ hn).symm
  · obtain ⟨pre, post, e⟩ := List.append_of_mem hm
    refine ⟨pre, post, e, fun y hy hk => ?_⟩
    rw [e, List.map_append, List.map_cons, List.nodup_append] at hn
    exact (List.nodup_cons.1 hn.2.1).1 (List.mem_map.2 ⟨y, hy, hk⟩)
  · obtain ⟨pre, post, e, _⟩ := (h.2 x.1 x.2).1 hx
    rw [e]; simp

theorem canon_map {α β : Type} [DecidableEq α] {K : α → Bytes → Prop} {V : β → Bytes → Prop} {K' : α → Bytes → Prop} {V' : β → Bytes → Prop} {ys xs : List (α × β)} {lb es : Bytes}
    (hg : Gathers ys xs) (hl : AnyCount lb ys.length) (he : Each (fun y bs => ∃ b1 b2, K y.1 b1 ∧ V y.2 b2 ∧ bs = b1 ++ b2) ys es) (hn : lengthFault xs.length = none)
    (hx : ∀ x ∈ xs, (∀ w, K x.1 w → Canon (K' x.1) (K x.1) w) ∧ ∀ w, V x.2 w → Canon (V' x.2) (V x.2) w) :
    Canon (Counted (fun x bs => ∃ b1 b2, K' x.1 b1 ∧ V' x.2 b2 ∧ bs = b1 ++ b2) xs)
      (fun w => ∃ lb es, Gathers xs xs ∧ AnyCount lb xs.length ∧ Each (fun y bs => ∃ b1 b2, K y.1 b1 ∧ V y.2 b2 ∧ bs = b1 ++ b2) xs es ∧ w = lb ++ es) (lb ++ es) := by
  obtain ⟨g1, g2, g3⟩ := gathers_self ys xs hg
  obtain ⟨h1, es', h2, h3⟩ := each_subset xs ys es he g2 g3
  obtain ⟨m, m1, m2, m3⟩ := canon_count hn hl h1
  obtain ⟨d, d1, d2, d3⟩ := canon_each (L := fun x bs => ∃ b1 b2, K' x.1 b1 ∧ V' x.2 b2 ∧ bs = b1 ++ b2) h2 fun x hxm w ⟨b1, b2, k1, k2, e⟩ => by
    obtain ⟨c, c1, c2, c3⟩ := (hx x hxm).1 b1 k1
    obtain ⟨d, d1, d2, d3⟩ := (hx x hxm).2 b2 k2
    exact ⟨c ++ d, ⟨c, d, c1, d1, rfl⟩, ⟨c, d, c2, d2, rfl⟩, by simp [e]; omega⟩
  exact ⟨m ++ d, ⟨m, d, m1, d1, rfl⟩, ⟨m, d, g1, m2, d2, rfl⟩, by simp; omega⟩

theorem canon_same {L T : Bytes → Prop} {w : Bytes} (h1 : L w) (h2 : T w) : Canon L T w := ⟨w, h1, h2, Nat.le_refl _⟩

theorem canon_basic (b : Basic) (v : b.Val) (w : Bytes) (hf : b.fault v = none) (h : b.Takes v w) : Canon (b.Layout v) (b.Takes v) w := by
  cases b
  case bool =>
    obtain ⟨c, rfl, hv⟩ := h
    refine ⟨[(Bool.toNat v).toUInt8], rfl, ⟨_, rfl, ?_⟩, Nat.le_refl _⟩
    match v with
    | true => rfl
    | false => rfl
  case string => exact canon_sized hf h
  case int =>
    obtain ⟨n, h1, h2⟩ := h
    have hb : -2 ^ 27 ≤ Int64.toInt v ∧ Int64.toInt v < 2 ^ 27 := by
      change (if -2 ^ 27 ≤ Int64.toInt v ∧ Int64.toInt v < 2 ^ 27 then none else some Fault.panics) = none at hf
      split at hf
      · assumption
      · cases hf
    have hn : lengthFault n = none := by
      unfold lengthFault
      refine if_pos ?_
      split at h2 <;> omega
    obtain ⟨m, m1, m2, m3⟩ := canon_len hn h1 (Nat.le_refl _)
    exact ⟨m, ⟨n, m1, h2⟩, ⟨n, m2, h2⟩, m3⟩
  case uint => exact canon_len hf h (Nat.le_refl _)
  all_goals exact canon_same h h

theorem canon_action (a : Action) (w : Bytes) (hf : a.fault = none) (h : ActionTakes a w) : Canon (ActionLayout a) (ActionTakes a) w := by
  obtain ⟨ac, n, lb, au, d, h1, h2, h3, h4, h5, rfl⟩ := h
  have hf := or_none' hf
  obtain ⟨m, m1, m2, m3⟩ := canon_count hf.1 h3 (Nat.le_refl _)
  obtain ⟨d', d1, d2, d3⟩ := canon_sized hf.2 h5
  exact ⟨ac ++ n ++ (m ++ au) ++ d', ⟨ac, n, m ++ au, d', h1, h2, ⟨m, au, m1, h4, rfl⟩, d1, rfl⟩, ⟨ac, n, m, au, d', h1, h2, m2, h4, d2, by simp⟩, by simp; omega⟩

theorem canon_header (a : TxHeader) (w : Bytes) (hf : a.fault = none) (h : HeaderTakes a w) : Canon (HeaderLayout a) (HeaderTakes a) w := by
  obtain ⟨e, n, p, mw, c, d, h1, h2, h3, h4, h5, h6, rfl⟩ := h
  have hf := or_none' hf
  obtain ⟨m, m1, m2, m3⟩ := canon_len hf.1 h4 (Nat.le_refl _)
  obtain ⟨d', d1, d2, d3⟩ := canon_len hf.2 h6 (Nat.le_refl _)
  exact ⟨e ++ n ++ p ++ m ++ c ++ d', ⟨e, n, p, m, c, d', h1, h2, h3, m1, h5, d1, rfl⟩, ⟨e, n, p, m, c, d', h1, h2, h3, m2, h5, d2, rfl⟩, by simp; omega⟩

theorem canon_extension (a : TxExtension) (w : Bytes) (hf : a.fault = none) (h : ExtensionTakes a w) : Canon (ExtensionLayout a) (ExtensionTakes a) w := by
  obtain ⟨t, d, h1, h2, rfl⟩ := h
  obtain ⟨d', d1, d2, d3⟩ := canon_sized hf h2
  exact ⟨t ++ d', ⟨t, d', h1, d1, rfl⟩, ⟨t, d', h1, d2, rfl⟩, by simp; omega⟩

theorem canon_transaction (a : Transaction) (w : Bytes) (hf : a.fault = none) (h : TransactionTakes a w) : Canon (TransactionLayout a) (TransactionTakes a) w := by
  obtain ⟨f0, h'⟩ := or_none' hf
  obtain ⟨f1, h'⟩ := or_none' h'
  obtain ⟨f2, h'⟩ := or_none' h'
  obtain ⟨f3, h'⟩ := or_none' h'
  obtain ⟨f4, h'⟩ := or_none' h'
  obtain ⟨f5, f6⟩ := or_none' h'
  obtain ⟨h, c, ac, x, h1, h2, h3, h4, rfl⟩ := h
  obtain ⟨b0, p0, q0, r0⟩ := canon_header _ h f0 h1
  obtain ⟨b1, p1, q1, r1⟩ := canon_counted f1 h2 fun x hx w => canon_action x w (each_none f2 x hx)
  obtain ⟨b2, p2, q2, r2⟩ := canon_counted f3 h3 fun x hx w => canon_action x w (each_none f4 x hx)
  obtain ⟨b3, p3, q3, r3⟩ := canon_counted f5 h4 fun x hx w => canon_extension x w (each_none f6 x hx)
  exact ⟨b0 ++ b1 ++ b2 ++ b3, ⟨b0, b1, b2, b3, p0, p1, p2, p3, rfl⟩, ⟨b0, b1, b2, b3, q0, q1, q2, q3, rfl⟩, by simp; omega⟩

theorem relength_min {lb m b : Bytes} (h : Relength lb m b) : Relength m m b ∧ m.length ≤ lb.length :=
  have : (2 : Nat) ^ 35 < 2 ^ 64 := by decide
  ⟨⟨minLeb_any h.2.1 (Nat.lt_trans h.2.2 this), h.2⟩, minLeb_short h.2.1 h.1 (Nat.le_refl _)⟩

theorem canon_key (k : PubKey) (w : Bytes) (h : KeyTakes k w) : Canon (fun w => w = k.type :: k.data) (KeyTakes k) w := by
  rcases h with ⟨h1, h2, rfl⟩ | ⟨h1, p, lb, m, id, h2, h3, h4, rfl⟩
  · exact canon_same rfl (.inl ⟨h1, h2, rfl⟩)
  · have := relength_min h3
    exact ⟨_, rfl, .inr ⟨h1, p, m, m, id, h2, this.1, h4, by rw [h4]⟩, by simp [h4]; omega⟩

theorem canon_sig (k : Sig) (w : Bytes) (h : SigTakes k w) : Canon (fun w => w = k.type :: k.data) (SigTakes k) w := by
  rcases h with ⟨h1, h2, rfl⟩ | ⟨h1, p, lb, m, ad, lb', m', cd, h2, h3, h4, h5, rfl⟩
  · exact canon_same rfl (.inl ⟨h1, h2, rfl⟩)
  · have a := relength_min h3
    have b := relength_min h4
    exact ⟨_, rfl, .inr ⟨h1, p, m, m, ad, m', m', cd, h2, a.1, b.1, h5, by rw [h5]⟩, by simp [h5]; omega⟩

theorem canon_chain (c : ChainTy) (v : c.Val) (w : Bytes) (hf : c.fault v = none) (h : c.Takes v w) : Canon (c.Layout v) (c.Takes v) w := by
  cases c
  case action => exact canon_action v w hf h
  case transaction => exact canon_transaction v w hf h
  case transactionExtension => exact canon_extension v w hf h
  case transactionHeader => exact canon_header v w hf h
  case publicKey => exact canon_key v w h
  case signature => exact canon_sig v w h
  case blob =>
    obtain ⟨x, rfl, hs⟩ := h
    obtain ⟨b, h1, h2, h3⟩ := canon_sized hf hs
    exact ⟨b, h1, ⟨x, rfl, h2⟩, h3⟩
  case bytes =>
    obtain ⟨x, rfl, hs⟩ := h
    obtain ⟨b, h1, h2, h3⟩ := canon_sized hf hs
    exact ⟨b, h1, ⟨x, rfl, h2⟩, h3⟩
  case checksum160 => exact canon_same h.1 h
  case checksum256 => exact canon_same h.1 h
  case checksum512 => exact canon_same h.1 h
  case float128 => exact canon_same h.1 h
  all_goals exact canon_same h h

mutual
theorem canon_ty : (t : Ty) → (m : Mode) → m.Plain → t.Decodable m → (v : t.Val) → (w : Bytes) → t.fault v = none → t.Takes m v w → Canon (t.Layout v) (t.Takes m v) w
  | .basic b, m, _, _, v, w, hf, h => by
    obtain ⟨bs, h1, h2, h3⟩ := canon_basic b v w hf h.2
    exact ⟨bs, h1, ⟨h.1, h2⟩, h3⟩
  | .named b, m, _, hd, v, w, _, h => by
    have hf : b.fault v = none := by
      have := h.2.1
      cases b <;> first | rfl | exact this.elim
    obtain ⟨bs, h1, h2, h3⟩ := canon_basic b v w hf h.2.2
    exact ⟨bs, h1, ⟨h.1, h.2.1, h2⟩, h3⟩
  | .unsupported, _, _, _, _, _, _, h => h.elim
  | .bytes, m, _, _, v, w, hf, h => by
    obtain ⟨bs, h1, h2, h3⟩ := canon_sized hf h.1
    exact ⟨bs, h1, ⟨h2, h.2⟩, h3⟩
  | .chain c, m, _, _, v, w, hf, h => by
    obtain ⟨bs, h1, h2, h3⟩ := canon_chain c v w hf h.2
    exact ⟨bs, h1, ⟨h.1, h2⟩, h3⟩
  | .ptr t, m, hm, hd, v, w, hf, ⟨x, hx, h⟩ => by
    cases hx
    have key : ∀ m' : Mode, m'.Plain → t.Decodable m' → t.Takes m' x w → ∃ bs, t.Layout x bs ∧ t.Takes m' x bs ∧ bs.length ≤ w.length := fun m' p d h => canon_ty t m' p d x w hf h
    cases m with
    | variant i => exact absurd hm (by simp [Mode.Plain])
    | member => exact absurd hm (by simp [Mode.Plain])
    | elem =>
      obtain ⟨bs, h1, h2, h3⟩ := key .decode (by simp [Mode.Plain]) hd h
      exact ⟨bs, ⟨x, rfl, h1⟩, ⟨x, rfl, h2⟩, h3⟩
    | decode =>
      obtain ⟨bs, h1, h2, h3⟩ := key .value (by simp [Mode.Plain]) hd h
      exact ⟨bs, ⟨x, rfl, h1⟩, ⟨x, rfl, h2⟩, h3⟩
    | value =>
      obtain ⟨bs, h1, h2, h3⟩ := key .value (by simp [Mode.Plain]) hd h
      exact ⟨bs, ⟨x, rfl, h1⟩, ⟨x, rfl, h2⟩, h3⟩
  | .slice t, m, _, hd, v, w, hf, h => by
    have hf := or_none' hf
    obtain ⟨bs, h1, h2, h3⟩ := canon_counted (L := t.Layout) hf.1 h.2.2 fun x hx w => canon_ty t .elem (by simp [Mode.Plain]) hd x w (each_none hf.2 x hx)
    exact ⟨bs, h1, ⟨h.1, h.2.1, h2⟩, h3⟩
  | .array _ t, m, _, hd, v, w, hf, h => by
    obtain ⟨bs, h1, h2, h3⟩ := canon_each (L := t.Layout) h.2.2 fun x hx w => canon_ty t .elem (by simp [Mode.Plain]) hd x w (each_none hf x hx)
    exact ⟨bs, h1, ⟨h.1, h.2.1, h2⟩, h3⟩
  | .map k e, m, _, hd, v, w, hf, ⟨hm, ys, xs, lb, es, hv, hg, hl, he, hw⟩ => by
    cases hv
    have hf := or_none' hf
    obtain ⟨bs, h1, ⟨lb', es', h2, h3, h4, h5⟩, h6⟩ := canon_map (K := k.Takes .decode) (V := e.Takes .decode) (K' := k.Layout) (V' := e.Layout) hg hl he hf.1 fun x hx => by
      have hf := or_none' (each_none hf.2 x hx)
      exact ⟨fun w => canon_ty k .decode (by simp [Mode.Plain]) hd.2.1 x.1 w hf.1, fun w => canon_ty e .decode (by simp [Mode.Plain]) hd.2.2 x.2 w hf.2⟩
    exact ⟨bs, h1, ⟨hm, xs, xs, lb', es', rfl, h2, h3, h4, h5⟩, by rw [hw]; exact h6⟩
  | .struct fs, m, hm, hd, v, w, hf, h => by
    cases m with
    | variant i => exact absurd hm (by simp [Mode.Plain])
    | member => exact absurd hm (by simp [Mode.Plain])
    | elem => exact canon_fields fs hd v w hf h
    | decode => exact canon_fields fs hd v w hf h
    | value => exact canon_fields fs hd v w hf h
  | .ref _ _ _, _, _, _, _, _, _, h => h.elim
theorem canon_fields : (fs : Fields) → fs.Decodable → (v : fs.Val) → (w : Bytes) → fs.fault v = none → fs.Takes v w → Canon (fs.Layout v) (fs.Takes v) w
  | .nil, _, _, _, _, h => canon_same h h
  | .cons vis tag t fs, ⟨hvis, hvar, hd, hds⟩, v, w, hf, ⟨b1, b2, h2, hw, h1⟩ => by
    obtain ⟨x, xs⟩ : t.Val × fs.Val := v
    have hf := or_none' hf
    obtain ⟨c2, p2, q2, r2⟩ := canon_fields fs hds xs b2 hf.2 h2
    subst hvis
    have f1 : (if tag = .optional ∧ x = t.zero then none else if (Vis.exported = .exported) then t.fault x else some Fault.panics) = none := hf.1
    by_cases ht : tag = .optional
    · subst ht
      by_cases hz : x = t.zero
      · refine ⟨[0] ++ c2, ⟨[0], c2, p2, rfl, ?_⟩, ⟨[0], c2, q2, rfl, .inl ⟨hz, rfl⟩⟩, ?_⟩
        · exact .inl ⟨hz, rfl⟩
        · have : 1 ≤ b1.length := by
            rcases h1 with ⟨_, e⟩ | ⟨p, b, _, _, e⟩ <;> rw [e] <;> simp
          rw [hw]; simp; omega
      · rw [if_neg fun h => hz h.2, if_pos rfl] at f1
        rcases h1 with ⟨hz', _⟩ | ⟨p, b, hp, hb, e⟩
        · exact absurd hz' hz
        · obtain ⟨c1, p1, q1, r1⟩ := canon_ty t .elem (by simp [Mode.Plain]) hd x b f1 hb
          refine ⟨(1 :: c1) ++ c2, ⟨1 :: c1, c2, p2, rfl, ?_⟩, ⟨1 :: c1, c2, q2, rfl, .inr ⟨1, c1, by decide, q1, rfl⟩⟩, ?_⟩
          · exact .inr ⟨hz, c1, p1, rfl⟩
          · rw [hw, e]; simp; omega
    · rw [if_neg fun h => ht h.1, if_pos rfl] at f1
      have hT : t.Takes .elem x b1 := by
        cases tag with
        | optional => exact absurd rfl ht
        | variant => exact absurd rfl hvar
        | _ => exact h1
      obtain ⟨c1, p1, q1, r1⟩ := canon_ty t .elem (by simp [Mode.Plain]) hd x b1 f1 hT
      refine ⟨c1 ++ c2, ⟨c1, c2, p2, rfl, ?_⟩, ⟨c1, c2, q2, rfl, ?_⟩, by rw [hw]; simp; omega⟩
      · rw [if_neg ht]; exact p1
      · cases tag with
        | optional => exact absurd rfl ht
        | variant => exact absurd rfl hvar
        | _ => exact q1
end

/-! ## What was read can be written, or is too long -/

/-- No error -/
def Calm (f : Option Fault) : Prop := f = none ∨ f = some .panics

theorem calm_len (n : Nat) : Calm (lengthFault n) := by unfold lengthFault; split <;> simp [Calm]

theorem Calm.or {f g : Option Fault} (hf : Calm f) (hg : Calm g) : Calm (f.or g) := by
  rcases hf with rfl | rfl
  · simpa using hg
  · exact .inr rfl

theorem calm_each {α : Type} {fa : α → Option Fault} (xs : List α) (h : ∀ x ∈ xs, Calm (fa x)) : Calm (xs.findSome? fa) := by
  induction xs with
  | nil => exact .inl rfl
  | cons x xs ih =>
    rw [List.findSome?_cons]
    rcases h x (by simp) with e | e <;> rw [e]
    · exact ih fun y hy => h y (by simp [hy])
    · exact .inr rfl

theorem calm_basic (b : Basic) (v : b.Val) : Calm (b.fault v) := by
  cases b
  case string => exact calm_len _
  case uint => exact calm_len _
  case int =>
    change Calm (if -2 ^ 27 ≤ Int64.toInt v ∧ Int64.toInt v < 2 ^ 27 then none else some Fault.panics)
    split
    · exact .inl rfl
    · exact .inr rfl
  all_goals exact .inl rfl

theorem calm_chain (c : ChainTy) (v : c.Val) : Calm (c.fault v) := by
  have act : ∀ a : Action, Calm a.fault := fun a => (calm_len _).or (calm_len _)
  cases c
  case action => exact act v
  case blob => exact calm_len _
  case bytes => exact calm_len _
  case transaction => exact ((calm_len _).or (calm_len _)).or <| (calm_len _).or <| (calm_each _ fun a _ => act a).or <| (calm_len _).or <| (calm_each _ fun a _ => act a).or <| (calm_len _).or (calm_each _ fun _ _ => calm_len _)
  case transactionExtension => exact calm_len _
  case transactionHeader => exact (calm_len _).or (calm_len _)
  all_goals exact .inl rfl

theorem sized_lt {w b : Bytes} (h : Sized w b) : b.length < 2 ^ 63 := by
  obtain ⟨_, _, h, _⟩ := h
  have : maxAlloc < 2 ^ 63 := by decide
  omega

theorem anyCount_lt {lb : Bytes} {n : Nat} (h : AnyCount lb n) : n < 2 ^ 63 := by
  rcases h with ⟨_, h⟩ | ⟨h, _⟩ <;> omega

theorem each_takes {α : Type} {T : α → Bytes → Prop} {xs : List α} {es : Bytes} (h : Each T xs es) (x : α) (hx : x ∈ xs) : ∃ w, T x w := by
  induction h with
  | nil => cases hx
  | cons h1 _ ih =>
    rcases List.mem_cons.1 hx with rfl | hx
    · exact ⟨_, h1⟩
    · exact ih hx

theorem chain_takes_real (c : ChainTy) (v : c.Val) (w : Bytes) (h : c.Takes v w) : c.Real v := by
  have act : ∀ (a : Action) w, ActionTakes a w → a.GoLens := fun a w ⟨_, _, _, _, _, _, _, h3, _, h5, _⟩ => ⟨anyCount_lt h3, sized_lt h5⟩
  cases c
  case action => exact act v w h
  case blob =>
    obtain ⟨x, rfl, h⟩ := h
    exact sized_lt h
  case bytes =>
    obtain ⟨x, rfl, h⟩ := h
    exact sized_lt h
  case transactionExtension =>
    obtain ⟨_, _, _, h, _⟩ := h
    exact sized_lt h
  case transaction =>
    obtain ⟨_, _, _, _, _, ⟨_, _, _, h2, _, h3, _⟩, ⟨_, _, _, g2, _, g3, _⟩, ⟨_, _, _, k2, _, k3, _⟩, _⟩ := h
    refine ⟨h2, g2, k2, fun a ha => ?_, fun a ha => ?_, fun a ha => ?_⟩
    · obtain ⟨w, h⟩ := each_takes h3 a ha
      exact act a w h
    · obtain ⟨w, h⟩ := each_takes g3 a ha
      exact act a w h
    · obtain ⟨w, _, _, _, h, _⟩ := each_takes k3 a ha
      exact sized_lt h
  all_goals trivial

mutual
theorem calm_ty : (t : Ty) → (m : Mode) → m.Plain → t.Decodable m → (v : t.Val) → (w : Bytes) → t.Takes m v w → t.Real v ∧ Calm (t.fault v)
  | .basic b, m, _, _, v, w, h => by
    refine ⟨?_, calm_basic b v⟩
    cases b
    case string => exact sized_lt h.2
    all_goals trivial
  | .named b, m, _, hd, v, w, h => by
    refine ⟨trivial, ?_⟩
    have := h.2.1
    cases b <;> first | exact .inl rfl | exact this.elim
  | .unsupported, _, _, _, _, _, h => h.elim
  | .bytes, m, _, _, v, w, h => ⟨sized_lt h.1, calm_len _⟩
  | .chain c, m, _, _, v, w, h => ⟨chain_takes_real c v w h.2, calm_chain c v⟩
  | .ptr t, m, hm, hd, v, w, ⟨x, hx, h⟩ => by
    cases hx
    have key : t.Real x ∧ Calm (t.fault x) := by
      cases m with
      | variant i => exact absurd hm (by simp [Mode.Plain])
      | member => exact absurd hm (by simp [Mode.Plain])
      | elem => exact calm_ty t .decode (by simp [Mode.Plain]) hd x w h
      | decode => exact calm_ty t .value (by simp [Mode.Plain]) hd x w h
      | value => exact calm_ty t .value (by simp [Mode.Plain]) hd x w h
    exact ⟨fun y hy => by cases hy; exact key.1, key.2⟩
  | .slice t, m, _, hd, v, w, h => by
    obtain ⟨_, _, ⟨_, _, _, h2, _, h3, _⟩⟩ := h
    have key := fun x hx => Exists.elim (each_takes h3 x hx) fun w h => calm_ty t .elem (by simp [Mode.Plain]) hd x w h
    exact ⟨⟨h2, fun x hx => (key x hx).1⟩, (calm_len _).or (calm_each _ fun x hx => (key x hx).2)⟩
  | .array _ t, m, _, hd, v, w, h => by
    obtain ⟨_, _, h3⟩ := h
    have key := fun x hx => Exists.elim (each_takes h3 x hx) fun w h => calm_ty t .elem (by simp [Mode.Plain]) hd x w h
    exact ⟨fun x hx => (key x hx).1, calm_each _ fun x hx => (key x hx).2⟩
  | .map k e, m, _, hd, v, w, ⟨hm, ys, xs, lb, es, hv, hg, hl, he, hw⟩ => by
    cases hv
    obtain ⟨_, g2, g3⟩ := gathers_self ys xs hg
    obtain ⟨h1, es', h2, _⟩ := each_subset xs ys es he g2 g3
    have hlt := anyCount_lt hl
    have key : ∀ x ∈ xs, (k.Real x.1 ∧ Calm (k.fault x.1)) ∧ e.Real x.2 ∧ Calm (e.fault x.2) := fun x hx => by
      obtain ⟨w, b1, b2, k1, k2, _⟩ := each_takes h2 x hx
      exact ⟨calm_ty k .decode (by simp [Mode.Plain]) hd.2.1 x.1 b1 k1, calm_ty e .decode (by simp [Mode.Plain]) hd.2.2 x.2 b2 k2⟩
    exact ⟨⟨Nat.lt_of_le_of_lt h1 hlt, fun x hx => ⟨(key x hx).1.1, (key x hx).2.1⟩⟩, (calm_len _).or (calm_each _ fun x hx => (key x hx).1.2.or (key x hx).2.2)⟩
  | .struct fs, m, hm, hd, v, w, h => by
    cases m with
    | variant i => exact absurd hm (by simp [Mode.Plain])
    | member => exact absurd hm (by simp [Mode.Plain])
    | elem => exact calm_fields fs hd v w h
    | decode => exact calm_fields fs hd v w h
    | value => exact calm_fields fs hd v w h
  | .ref _ _ _, _, _, _, _, _, h => h.elim
theorem calm_fields : (fs : Fields) → fs.Decodable → (v : fs.Val) → (w : Bytes) → fs.Takes v w → fs.Real v ∧ Calm (fs.fault v)
  | .nil, _, _, _, _ => ⟨trivial, .inl rfl⟩
  | .cons vis tag t fs, ⟨hvis, hvar, hd, hds⟩, v, w, ⟨b1, b2, h2, _, h1⟩ => by
    obtain ⟨x, xs⟩ : t.Val × fs.Val := v
    have ih := calm_fields fs hds xs b2 h2
    subst hvis
    have key : t.Real x ∧ Calm (if tag = .optional ∧ x = t.zero then none else if (Vis.exported = .exported) then t.fault x else some Fault.panics) := by
      by_cases hz : tag = .optional ∧ x = t.zero
      · rw [if_pos hz]
        exact ⟨hz.2 ▸ real_zero t, .inl rfl⟩
      · rw [if_neg hz, if_pos rfl]
        have : ∃ b, t.Takes .elem x b := by
          cases tag with
          | optional =>
            rcases h1 with ⟨h, _⟩ | ⟨p, b, _, h, _⟩
            · exact absurd ⟨rfl, h⟩ hz
            · exact ⟨b, h⟩
          | variant => exact absurd rfl hvar
          | _ => exact ⟨_, h1⟩
        obtain ⟨b, hb⟩ := this
        exact calm_ty t .elem (by simp [Mode.Plain]) hd x b hb
    exact ⟨⟨key.1, ih.1⟩, key.2.or ih.2⟩
end

end Verif
