import Verif.Spec.Sizes
import Verif.Lemmas.Canon
import Mathlib.Data.List.Nodup
import Mathlib.Data.List.Perm.Subperm
import Mathlib.Algebra.Order.BigOperators.Group.List
/-! # Decoded values hold no more than the input -/
namespace Verif
open Dec

theorem Dec.Asks.bind {α β : Type} {fin : Err} {p : Dec α} {g : α → Dec β} {m : Nat} : ∀ {bs : Bytes}, (p >>= g).Asks fin bs m ↔ p.Asks fin bs m ∨ ∃ a r, p.runE fin bs = .ok a r ∧ (g a).Asks fin r m := by
  induction p with
  | ret a => exact fun {bs} => ⟨fun h => .inr ⟨a, bs, rfl, h⟩, fun h => h.elim False.elim fun ⟨_, _, h, h'⟩ => by cases h; exact h'⟩
  | panic w => exact fun {bs} => ⟨fun h => h.elim, fun h => h.elim False.elim fun ⟨_, _, h, _⟩ => nomatch h⟩
  | diverge => exact fun {bs} => ⟨fun h => h.elim, fun h => h.elim False.elim fun ⟨_, _, h, _⟩ => nomatch h⟩
  | read n k ih =>
    intro bs
    by_cases h : n ≤ bs.length
    · simp only [Bind.bind, Dec.bind, Dec.Asks, Dec.runE, if_pos h]
      rw [or_assoc]
      exact or_congr_right (ih _ _ _)
    · simp only [Bind.bind, Dec.bind, Dec.Asks, Dec.runE, if_neg h]
      rw [or_assoc]
      exact or_congr_right (ih _ _ _)

theorem uvarint_exists (l : UInt64) : ∃ p, MinLeb p l.toNat ∧ AnyLeb p l.toNat := by
  have h : (putUvarint 10 l).isSome := (putUvarint_isSome 10 _).mpr ⟨by have := l.toNat_lt; omega, by decide⟩
  obtain ⟨bs, hbs⟩ := Option.isSome_iff_exists.mp h
  exact ⟨bs, putUvarint_minLeb _ _ _ hbs, minLeb_any (putUvarint_minLeb _ _ _ hbs) l.toNat_lt⟩

theorem leb_exists (n : Nat) (h : n < 2 ^ 64) : ∃ p, MinLeb p n ∧ AnyLeb p n := by
  have e : n.toUInt64.toNat = n := by simp; omega
  have := uvarint_exists n.toUInt64
  rwa [e] at this

/-! ## Sums -/

theorem each_sum {α : Type} {R : α → Bytes → Prop} {f : α → Nat} (h : ∀ x w, R x w → f x ≤ w.length) {xs : List α} {w : Bytes} (he : Each R xs w) : (xs.map f).sum ≤ w.length := by
  induction he with
  | nil => simp
  | cons h1 _ ih => simpa using Nat.add_le_add (h _ _ h1) ih

theorem anyCount_pos {lb : Bytes} {n : Nat} (h : AnyCount lb n) : 1 ≤ lb.length := by
  rcases h with ⟨h, _⟩ | ⟨_, m, h, _⟩ <;> exact anyLeb_pos h

theorem sized_holds {w b : Bytes} (h : Sized w b) : b.length + 1 ≤ w.length := by
  obtain ⟨lb, h, _, rfl⟩ := h
  have := anyLeb_pos h
  simp; omega

theorem sizedEach_holds {α : Type} {n : Nat} {R : α → Bytes → Prop} {f : α → Nat} (h : ∀ x w, R x w → f x ≤ w.length) {xs : List α} {w : Bytes} (he : SizedEach n R xs w) : (xs.map f).sum + 1 ≤ w.length := by
  obtain ⟨lb, es, h1, _, _, h2, rfl⟩ := he
  have := anyLeb_pos h1
  have := each_sum h h2
  simp; omega

theorem leI_length {n : Nat} {i : Int} {w : Bytes} (h : LeFormI n i w) : w.length = n := h.1
theorem le_length {n v : Nat} {w : Bytes} (h : LeForm n v w) : w.length = n := h.1

theorem perm_holds {x : PermissionLevel} {w : Bytes} (h : PermLayout x w) : w.length = 16 := by
  obtain ⟨a, b, h1, h2, rfl⟩ := h
  have := h1.1
  have := h2.1
  simp; omega

theorem action_holds {a : Action} {w : Bytes} (h : ActionTakes a w) : a.holds + 1 ≤ w.length := by
  obtain ⟨ac, n, lb, au, d, h1, h2, h3, h4, h5, rfl⟩ := h
  have h4 := each_sum (f := fun _ => 1) (fun x w h => by have := perm_holds h; omega) h4
  have h5 := sized_holds h5
  have := h1.1
  simp [Action.holds] at h4 ⊢
  omega

theorem extension_holds {a : TxExtension} {w : Bytes} (h : ExtensionTakes a w) : a.holds + 1 ≤ w.length := by
  obtain ⟨t, d, h1, h2, rfl⟩ := h
  have h2 := sized_holds h2
  simp [TxExtension.holds]
  omega

theorem header_holds {a : TxHeader} {w : Bytes} (h : HeaderTakes a w) : 1 ≤ w.length := by
  obtain ⟨e, n, p, mw, c, d, h1, _, _, _, _, _, rfl⟩ := h
  have := h1.1
  simp; omega

theorem transaction_holds {a : Transaction} {w : Bytes} (h : TransactionTakes a w) : a.holds + 1 ≤ w.length := by
  obtain ⟨hb, cb, ab, xb, h1, h2, h3, h4, rfl⟩ := h
  have := header_holds h1
  have h2 := sizedEach_holds (f := fun a => 1 + a.holds) (fun x w h => by have := action_holds h; omega) h2
  have h3 := sizedEach_holds (f := fun a => 1 + a.holds) (fun x w h => by have := action_holds h; omega) h3
  have h4 := sizedEach_holds (f := fun a => 1 + a.holds) (fun x w h => by have := extension_holds h; omega) h4
  simp only [Transaction.holds, List.length_append]
  omega

theorem relength_short {lb m b : Bytes} (h : Relength lb m b) : m.length ≤ lb.length := minLeb_short h.2.1 h.1 (Nat.le_refl _)

theorem key_holds {k : PubKey} {w : Bytes} (h : KeyTakes k w) : k.data.length + 1 ≤ w.length := by
  rcases h with ⟨_, _, rfl⟩ | ⟨_, point, lb, m, id, _, h, h', rfl⟩
  · simp
  · have := relength_short h
    rw [h']; simp; omega

theorem sig_holds {s : Sig} {w : Bytes} (h : SigTakes s w) : s.data.length + 1 ≤ w.length := by
  rcases h with ⟨_, _, rfl⟩ | ⟨_, sig, lb, m, ad, lb', m', cd, _, h, h', h'', rfl⟩
  · simp
  · have := relength_short h
    have := relength_short h'
    rw [h'']; simp; omega

theorem asset_length {a : Asset} {w : Bytes} (h : AssetLayout a w) : w.length = 16 := by
  obtain ⟨v, s, h1, h2, rfl⟩ := h
  have := h1.1
  have := h2.1
  simp; omega

theorem basic_holds {b : Basic} {v : b.Val} {w : Bytes} (h : b.Takes v w) : b.holds v + 1 ≤ w.length := by
  cases b
  case string => exact sized_holds h
  case bool => obtain ⟨c, rfl, _⟩ := h; exact Nat.le_refl _
  case int => obtain ⟨n, h, _⟩ := h; have := anyLeb_pos h; simp only [Basic.holds]; omega
  case uint => have := anyLeb_pos h; simp only [Basic.holds]; omega
  all_goals
    have : w.length = _ := h.1
    simp only [Basic.holds]; omega

theorem chain_holds {c : ChainTy} {v : c.Val} {w : Bytes} (h : c.Takes v w) : c.holds v + 1 ≤ w.length := by
  cases c
  case action => exact action_holds h
  case asset => have := asset_length h; simp only [ChainTy.holds]; omega
  case blob => obtain ⟨x, rfl, h⟩ := h; exact sized_holds h
  case bytes => obtain ⟨x, rfl, h⟩ := h; exact sized_holds h
  case permissionLevel => have := perm_holds h; simp only [ChainTy.holds]; omega
  case publicKey => exact key_holds h
  case signature => exact sig_holds h
  case transaction => exact transaction_holds h
  case transactionExtension => exact extension_holds h
  case transactionHeader => have := header_holds h; simp only [ChainTy.holds]; omega
  case extendedAsset =>
    obtain ⟨q, c, h1, h2, rfl⟩ := h
    have := asset_length h1
    simp [ChainTy.holds]; omega
  case checksum160 | checksum256 | checksum512 | float128 => have := h.2; simp only [ChainTy.holds]; omega
  all_goals
    have : w.length = _ := h.1
    simp only [ChainTy.holds]; omega

theorem chain_holds_zero (c : ChainTy) : c.holds c.zero = 0 := by cases c <;> rfl
theorem basic_holds_zero (b : Basic) : b.holds b.zero = 0 := by cases b <;> rfl

mutual
theorem holds_zero : (t : Ty) → t.holds t.zero = 0
  | .basic b => basic_holds_zero b
  | .named b => basic_holds_zero b
  | .unsupported => rfl
  | .bytes => rfl
  | .chain c => chain_holds_zero c
  | .ptr t => rfl
  | .slice t => rfl
  | .array n t => by
    show ((List.replicate n t.zero).map fun x => t.holds x).sum = 0
    simp [holds_zero t]
  | .map k e => rfl
  | .struct fs => fields_holds_zero fs
  | .ref _ _ _ => rfl
theorem fields_holds_zero : (fs : Fields) → fs.holds fs.zero = 0
  | .nil => rfl
  | .cons vis tag t fs => by
    show t.holds t.zero + fs.holds fs.zero = 0
    rw [holds_zero t, fields_holds_zero fs]
end

theorem nodup_dups {α : Type} [DecidableEq α] : (n : Nat) → (l : List α) → l.length ≤ n → l.eraseDups.Nodup
  | _, [], _ => by simp
  | n + 1, x :: l, h => by
    rw [List.eraseDups_cons, List.nodup_cons]
    refine ⟨by simp, nodup_dups n _ (Nat.le_trans (List.length_filter_le _ _) (by simpa using h))⟩

/-- A map has no more in it than the entries it arises from. -/
theorem gathers_sum {α β : Type} [DecidableEq α] {ys m : List (α × β)} (h : Gathers ys m) (f : α × β → Nat) : (m.map f).sum ≤ (ys.map f).sum := by
  have hn : m.Nodup := List.Nodup.of_map Prod.fst (by rw [h.1]; exact nodup_dups _ _ (Nat.le_refl _))
  have hs : m ⊆ ys := fun ⟨k, x⟩ hk => by
    obtain ⟨pre, post, e, _⟩ := (h.2 k x).1 hk
    rw [e]; simp
  obtain ⟨l, hp, hl⟩ := List.subperm_of_subset hn hs
  rw [← (hp.map f).sum_eq]
  exact (hl.map f).sum_le_sum fun _ _ => Nat.zero_le _

/-- What the mode leaves of the least number of bytes: of a variant only one member is there. -/
def Mode.least (m : Mode) (n : Nat) : Nat := match m with
  | .variant _ => 0
  | _ => n

theorem Mode.least_le (m : Mode) (n : Nat) : m.least n ≤ n := by cases m <;> simp [Mode.least]

mutual
theorem takes_holds : (t : Ty) → t.Filled → (m : Mode) → (v : t.Val) → (w : Bytes) → t.Takes m v w → t.holds v + m.least t.least ≤ w.length
  | .basic b, _, m, v, w, h => Nat.le_trans (Nat.add_le_add_left (m.least_le 1) _) (basic_holds h.2)
  | .named b, _, m, v, w, h => Nat.le_trans (Nat.add_le_add_left (m.least_le 1) _) (basic_holds h.2.2)
  | .unsupported, _, _, _, _, h => h.elim
  | .bytes, _, m, v, w, h => Nat.le_trans (Nat.add_le_add_left (m.least_le 1) _) (sized_holds h.1)
  | .chain c, _, m, v, w, h => Nat.le_trans (Nat.add_le_add_left (m.least_le 1) _) (chain_holds h.2)
  | .ptr t, hf, m, v, w, h => by
    obtain ⟨x, rfl, h⟩ := h
    have := takes_holds t hf _ x w h
    cases m <;> exact this
  | .slice t, hf, m, v, w, h => by
    refine Nat.le_trans (Nat.add_le_add_left (m.least_le 1) _) (sizedEach_holds (fun x w h => ?_) h.2.2)
    have : t.holds x + t.least ≤ w.length := takes_holds t hf.2 .elem x w h
    have := hf.1
    omega
  | .array n t, hf, m, v, w, h => by
    obtain ⟨_, hn, h⟩ := h
    refine Nat.le_trans (Nat.add_le_add_left (m.least_le _) _) ?_
    show ((show List t.Val from v).map fun x => t.holds x).sum + n * t.least ≤ _
    have := each_sum (f := fun x => t.holds x + t.least) (fun x w h => takes_holds t hf .elem x w h) h
    rw [List.sum_map_add, List.map_const', List.sum_replicate, hn] at this
    simpa using this
  | .map k e, hf, m, v, w, h => by
    obtain ⟨_, ys, xs, lb, es, rfl, hg, hc, he, rfl⟩ := h
    refine Nat.le_trans (Nat.add_le_add_left (m.least_le 1) _) ?_
    have h1 := each_sum (f := fun x => 1 + (k.holds x.1 + e.holds x.2)) (fun x w h => by
      obtain ⟨b1, b2, h1, h2, rfl⟩ := h
      have : k.holds x.1 + k.least ≤ b1.length := takes_holds k hf.2.1 .decode x.1 b1 h1
      have : e.holds x.2 + e.least ≤ b2.length := takes_holds e hf.2.2 .decode x.2 b2 h2
      have := hf.1
      simp; omega) he
    have h2 := gathers_sum hg (fun x => 1 + (k.holds x.1 + e.holds x.2))
    have := anyCount_pos hc
    show (xs.map fun x => 1 + (k.holds x.1 + e.holds x.2)).sum + 1 ≤ _
    simp only [List.length_append]; omega
  | .struct fs, hf, .variant idx, v, w, h => fields_member_holds fs hf idx v w h.2
  | .struct fs, hf, .member, v, w, h => h.elim
  | .struct fs, hf, .decode, v, w, h => fields_takes_holds fs hf v w h
  | .struct fs, hf, .elem, v, w, h => fields_takes_holds fs hf v w h
  | .struct fs, hf, .value, v, w, h => fields_takes_holds fs hf v w h
  | .ref _ _ _, _, _, _, _, h => h.elim
theorem fields_takes_holds : (fs : Fields) → fs.Filled → (v : fs.Val) → (w : Bytes) → fs.Takes v w → fs.holds v + fs.least ≤ w.length
  | .nil, _, _, _, _ => Nat.zero_le _
  | .cons vis tag t fs, hf, v, w, h => by
    obtain ⟨b1, b2, h2, rfl, h⟩ := h
    refine Nat.le_trans (Nat.le_of_eq (Nat.add_add_add_comm _ _ _ _)) ?_
    rw [List.length_append]
    refine Nat.add_le_add ?_ (fields_takes_holds fs hf.2 _ _ h2)
    have i1 := fun m b h => takes_holds t hf.1 m (show t.Val × fs.Val from v).1 b h
    have hz : (show t.Val × fs.Val from v).1 = t.zero → t.holds (show t.Val × fs.Val from v).1 = 0 := fun e => by rw [e]; exact holds_zero t
    cases vis with
    | blank => exact Nat.le_trans (Nat.le_of_eq (hz h.1)) (Nat.zero_le _)
    | unexported => exact h.elim
    | exported =>
      cases tag with
      | none => exact i1 .elem b1 h
      | extension => exact Nat.le_trans (Nat.add_le_add_left (Nat.zero_le _) _) (i1 .elem b1 h)
      | optional =>
        rcases h with ⟨h, rfl⟩ | ⟨p, b, _, h, rfl⟩
        · exact Nat.le_of_eq (congrArg (· + 1) (hz h))
        · exact Nat.succ_le_succ (Nat.le_trans (Nat.le_add_right _ _) (i1 .elem b h))
      | variant =>
        obtain ⟨idx, b, h, rfl⟩ := h
        exact Nat.succ_le_succ (i1 _ b h)
theorem fields_member_holds : (fs : Fields) → fs.Filled → (i : Nat) → (v : fs.Val) → (w : Bytes) → fs.TakesMember i v w → fs.holds v ≤ w.length
  | .nil, _, _, _, _, h => h.elim
  | .cons _ _ t fs, hf, 0, v, w, h => by
    have h1 := takes_holds t hf.1 .member _ w h.2.2
    have h2 := h.2.1
    show t.holds _ + fs.holds _ ≤ _
    rw [h2, fields_holds_zero]; omega
  | .cons _ _ t fs, hf, i + 1, v, w, h => by
    have h1 := fields_member_holds fs hf.2 i _ w h.2
    have h2 := h.1
    show t.holds _ + fs.holds _ ≤ _
    rw [h2, holds_zero]; omega
end

end Verif
