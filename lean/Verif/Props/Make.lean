import Verif.Props.Panics
import Verif.Props.Tx
import Verif.Lemmas.Layout
/-! # C45: how long a slice must be for make to panic -/
namespace Verif

/-- A slice of n elements of s bytes cannot be made: as an int the length is negative, or there are more than 2^48 bytes. -/
def Unmakeable (n s : Nat) : Prop := 2 ^ 63 ≤ n ∨ 2 ^ 48 < n * s

theorem makeSlice_run {α β : Type} (zero : α) (size n : Nat) (hn : n < 2 ^ 64) (k : List α → Dec β) (fin : Err) (bs : Bytes) :
    (Unmakeable n size ∧ ∃ w, (makeSlice zero size n.toUInt64 k).runE fin bs = .panic w) ∨ ¬ Unmakeable n size ∧ makeSlice zero size n.toUInt64 k = k (List.replicate n zero) := by
  unfold Unmakeable makeSlice
  rw [toNat_lt64 hn]
  by_cases h1 : 2 ^ 63 ≤ n
  · exact .inl ⟨.inl h1, "makeslice: len out of range", by rw [if_pos (goInt_neg h1 hn)]; rfl⟩
  · rw [goInt_toUInt64 n (by omega), if_neg (by omega)]
    by_cases h2 : n * size > maxAlloc
    · exact .inl ⟨.inr h2, "makeslice: len out of range", by rw [if_pos h2]; rfl⟩
    · exact .inr ⟨fun h => h.elim h1 h2, by rw [if_neg h2]⟩

theorem makeSlice_panics {α β : Type} (zero : α) (size n : Nat) (hn : n < 2 ^ 64) (k : List α → Dec β) (fin : Err) (bs : Bytes) (ht : Tame bs) (hk : ∀ xs, (k xs).Calm true) :
    (∃ w, (makeSlice zero size n.toUInt64 k).runE fin bs = .panic w) ↔ Unmakeable n size := by
  rcases makeSlice_run zero size n hn k fin bs with ⟨h, h'⟩ | ⟨h, h'⟩
  · exact ⟨fun _ => h, fun _ => h'⟩
  · rw [h']
    exact ⟨fun ⟨w, hw⟩ => absurd hw ((hk _).run fin bs w fun _ => ht), fun h' => absurd h' h⟩

/-- C45: the specification gives a size to every type that decoding can be asked for. -/
theorem C45_layout (t : Ty) (h : t.Steady) : ∃ s a, t.Has s a ∧ ∀ s' a', t.Has s' a' → s' = s ∧ a' = a := by
  obtain ⟨s, a, _, h'⟩ := has_exists t h
  refine ⟨s, a, h', fun s' a' h'' => ?_⟩
  have := (layout_has h'').symm.trans (layout_has h')
  exact ⟨congrArg Prod.fst this, congrArg Prod.snd this⟩

/-- C45: decoding a slice panics, if nothing of what follows the length can make it, exactly if the slice cannot be made. The length of the slice that was there matters because
that slice is used again if it has the right length. -/
theorem C45_slice_iff (t : Ty) (ht : t.Steady) (s a : Nat) (hs : t.Has s a) (old : Option (List t.Val)) (fin : Err) (p rest : Bytes) (hp : IsLeb p) (hl : p.length ≤ 10) (hv : lebValue p < 2 ^ 64)
    (hr : Tame rest) : (∃ w, (decode (.slice t) old).runE fin (p ++ rest) = .panic w) ↔
      2 ^ 63 ≤ lebValue p ∨ lebValue p ≠ (old.getD []).length ∧ 2 ^ 48 < lebValue p * s := by
  have hsz : t.size = s := congrArg Prod.fst (layout_has hs)
  have ih := ty_calm t ⟨ht, .inl rfl⟩ .elem (by intro _ h; cases h)
  have e : ∀ o : (Ty.slice t).Val, decode (.slice t) o = decodeSlice t.zero t.size (decodeWith chainDecoder t .elem) o := fun o => by
    unfold decode decodeWith viaDecFn
    rw [chainDecoder_else _ rfl]
    rfl
  refine Iff.trans (b := ∃ w, Dec.runE fin (decodeSlice t.zero t.size (decodeWith chainDecoder t .elem) old) (p ++ rest) = .panic w) (by exact Iff.of_eq (congrArg (fun d => ∃ w, Dec.runE fin d (p ++ rest) = .panic w) (e old))) ?_
  unfold decodeSlice
  rw [Dec.runE_bind, readVaruint_leb fin p rest hp hl hv]
  simp only [Out.bind_ok]
  by_cases h63 : 2 ^ 63 ≤ lebValue p
  · have := goInt_neg h63 hv
    rw [if_pos (by omega)]
    refine (makeSlice_panics _ _ _ hv _ fin rest hr fun _ => .bind (decEach_calm ih _) fun _ => .pure _).trans ?_
    exact ⟨fun _ => .inl h63, fun _ => .inl h63⟩
  · rw [goInt_toUInt64 _ (by omega)]
    by_cases he : lebValue p = (old.getD []).length
    · rw [if_neg (by omega)]
      refine ⟨fun ⟨w, hw⟩ => absurd hw (Dec.Calm.run (.bind (decEach_calm ih _) fun _ => .pure _) fin rest w fun _ => hr), fun h => ?_⟩
      rcases h with h | h
      · omega
      · exact absurd he h.1
    · rw [if_pos (by omega)]
      refine (makeSlice_panics _ _ _ hv _ fin rest hr fun _ => .bind (decEach_calm ih _) fun _ => .pure _).trans ?_
      rw [hsz]
      exact ⟨fun h => h.imp id fun h => ⟨he, h⟩, fun h => h.imp id And.right⟩

theorem decSlice_panics {α β : Type} (zero : α) (size : Nat) {dec : α → Dec (α × Option Err)} (h : ∀ x, (dec x).Calm true) (old : List α) (g : List α × Option Err → Dec β) (hg : ∀ a, (g a).Calm true)
    (fin : Err) (p rest : Bytes) (hp : IsLeb p) (hl : p.length ≤ 10) (hv : lebValue p < 2 ^ 64) (hr : Tame rest) :
    (∃ w, (decSlice zero size dec old >>= g).runE fin (p ++ rest) = .panic w) ↔ Unmakeable (lebValue p) size := by
  unfold decSlice
  rw [Dec.runE_bind, Dec.runE_bind, readVaruint_leb fin p rest hp hl hv]
  simp only [Out.bind_ok]
  rcases makeSlice_run zero size _ hv (fun xs => decEach dec xs) fin rest with ⟨h1, w, h2⟩ | ⟨h1, h2⟩
  · rw [h2]
    exact ⟨fun _ => h1, fun _ => ⟨w, rfl⟩⟩
  · rw [h2, ← Dec.runE_bind]
    exact ⟨fun ⟨w, hw⟩ => absurd hw (Dec.Calm.run (.bind (decEach_calm h _) hg) fin rest w fun _ => hr), fun h => absurd h h1⟩

/-- C45: the same for the three slices of a transaction; an action has 64 bytes, an extension 32. -/
theorem C45_transaction_iff (old : Transaction) (h : TxHeader) (hb : Bytes) (hh : old.header.unmarshal.Reads hb h) (fin : Err) (p rest : Bytes) (hp : IsLeb p) (hl : p.length ≤ 10) (hv : lebValue p < 2 ^ 64)
    (hr : Tame rest) : ((∃ w, old.unmarshal.runE fin (hb ++ (p ++ rest)) = .panic w) ↔ Unmakeable (lebValue p) 64) ∧
      ((∃ w, old.unmarshal.runE fin (hb ++ (0 :: (p ++ rest))) = .panic w) ↔ Unmakeable (lebValue p) 64) ∧
      ((∃ w, old.unmarshal.runE fin (hb ++ (0 :: 0 :: (p ++ rest))) = .panic w) ↔ Unmakeable (lebValue p) 32) := by
  have zero : ∀ (α : Type) (z : α) size (dec : α → Dec (α × Option Err)) (o : List α) (bs : Bytes), (decSlice z size dec o).runE fin (0 :: bs) = .ok ([], none) bs := by
    intro α z size dec o bs
    unfold decSlice
    rw [Dec.runE_bind, show (0 :: bs) = [0] ++ bs from rfl, readVaruint_leb fin [0] bs ⟨[], 0, rfl, (fun _ h => nomatch h), by decide⟩ (by decide) (by decide)]
    simp only [Out.bind_ok]
    rcases makeSlice_run z size (lebValue [0]) (by decide) (fun xs => decEach dec xs) fin bs with ⟨h1, _⟩ | ⟨_, h2⟩
    · rcases h1 with h1 | h1
      · exact absurd h1 (by decide)
      · rw [show lebValue [0] = 0 from rfl, Nat.zero_mul] at h1
        exact absurd h1 (by decide)
    · rw [h2]
      rfl
  refine ⟨?_, ?_, ?_⟩
  · unfold Transaction.unmarshal
    rw [Dec.runE_bind, hh fin]
    simp only [Out.bind_ok]
    exact decSlice_panics _ _ action_calm _ _ (by calm [decSlice_calm _ _ (by decide) action_calm _, decSlice_calm _ _ (by decide) txExtension_calm _]) fin p rest hp hl hv hr
  · unfold Transaction.unmarshal
    rw [Dec.runE_bind, hh fin]
    simp only [Out.bind_ok]
    rw [Dec.runE_bind, zero]
    simp only [Out.bind_ok]
    exact decSlice_panics _ _ action_calm _ _ (by calm [decSlice_calm _ _ (by decide) txExtension_calm _]) fin p rest hp hl hv hr
  · unfold Transaction.unmarshal
    rw [Dec.runE_bind, hh fin]
    simp only [Out.bind_ok]
    rw [Dec.runE_bind, zero]
    simp only [Out.bind_ok]
    rw [Dec.runE_bind, zero]
    simp only [Out.bind_ok]
    exact decSlice_panics _ _ txExtension_calm _ _ (fun _ => .pure _) fin p rest hp hl hv hr

/-- C45: the same for Abi.Decode of an array; an element is an interface value of 16 bytes. -/
theorem C45_array_iff (a : Abi) (n b : Bytes) (ext : Bool) (hs : Spelled n b true ext false) (hn : a.NoShort n) (fuel : Nat) (fin : Err) (p rest : Bytes) (hp : IsLeb p) (hl : p.length ≤ 10)
    (hv : lebValue p < 2 ^ 64) (hr : Tame rest) : (∃ w, (a.decode (fuel + 1) n).runE fin (p ++ rest) = .panic w) ↔ Unmakeable (lebValue p) 16 := by
  obtain ⟨ts, hts⟩ := noShort_resolves hn
  obtain ⟨hrd, t, ht⟩ := resolve_ready hts
  obtain ⟨e1, e2, e3, e4⟩ := spelled_unique hs (hrd _ t ht).1.2.1
  have hc : ∀ m, t.next ts m → (decodeTypeF ts fuel m).Calm true := fun m hm => decodeTypeF_calm ts (fun n t ht => ready_next hrd ht) fuel m (ready_next hrd ht m hm)
  simp only [Abi.decode, hts, decodeTypeF, ht, ← e4, Bool.false_eq_true, if_false, decodeBody, ← e2, if_true]
  rw [Dec.runE_bind, readVaruint_leb fin p rest hp hl hv]
  simp only [Out.bind_ok]
  refine makeSlice_panics _ _ _ hv _ fin rest hr fun va => .bind (decEach_calm (fun _ => decodeInner_calm ts t hc) _) fun r => ?_
  obtain ⟨v, e⟩ := r
  cases e <;> exact .pure _

/-! ## Examples -/

/-- A header of 40 bytes with two gaps: after the 2 bytes of the block number and after the byte of the cpu limit -/
example : (Ty.chain .transactionHeader).layout = (40, 8) ∧ (Ty.struct (fieldsOf [.basic .u8, .basic .string, .basic .u16])).layout = (32, 8) ∧
    (Ty.struct (fieldsOf [.basic .u8, .array 0 (.basic .u64)])).layout = (16, 8) := by decide
/-- 2^44 strings can be made, one more cannot. -/
example : IsLeb [129, 128, 128, 128, 128, 128, 4] ∧ lebValue [129, 128, 128, 128, 128, 128, 4] = 2 ^ 44 + 1 ∧ Unmakeable (2 ^ 44 + 1) 16 ∧ ¬ Unmakeable (2 ^ 44) 16 :=
  ⟨⟨[129, 128, 128, 128, 128, 128], 4, rfl, by decide, by decide⟩, by decide, .inr (by decide), fun h => h.elim (by decide) (by decide)⟩
example : ∃ w, (decode (.slice (.basic .string)) (none : Option (List Bytes))).run [129, 128, 128, 128, 128, 128, 4] = .panic w := ⟨_, rfl⟩
example : Tame [] := tame_of (by decide)

end Verif
