import Verif.Spec.AbiJson
import Verif.Lemmas.FloatDoc
import Verif.Lemmas.JsonRepair
import Verif.Lemmas.JsonTypes
import Verif.Lemmas.Numbers
import Verif.Lemmas.AbiJsonDecode
import Verif.Props.Symbol
import Verif.Props.Keys
/-! # The JSON document of a decoded value: lemmas -/
namespace Verif

/-! ## String literals -/

theorem means_uEscape {r : Nat} {u l s : Bytes} (h : r < 65536) (hu : Utf8Char r u) (hl : LitMeans l s) : LitMeans (uEscape r ++ l) (u ++ s) :=
  .code _ _ _ _ r u l s ⟨_, _, _, _, hexVal_hexDigit _ (Nat.mod_lt _ (by decide)), hexVal_hexDigit _ (Nat.mod_lt _ (by decide)), hexVal_hexDigit _ (Nat.mod_lt _ (by decide)),
    hexVal_hexDigit _ (Nat.mod_lt _ (by decide)), by omega⟩ hu hl

theorem means_escByte (a : UInt8) (ha : a.toNat < 128) {l s : Bytes} (hl : LitMeans l s) : LitMeans (escByte a ++ l) (a :: s) := by
  unfold escByte
  split
  · rename_i h
    rcases h with rfl | rfl
    · exact .esc _ _ _ _ (by decide) hl
    · exact .esc _ _ _ _ (by decide) hl
  split
  · rename_i h; subst h; exact .esc _ _ _ _ (by decide) hl
  split
  · rename_i h; subst h; exact .esc _ _ _ _ (by decide) hl
  split
  · rename_i h; subst h; exact .esc _ _ _ _ (by decide) hl
  split
  · rename_i h; rw [h.1]; exact .esc _ _ _ _ (by decide) hl
  split
  · rename_i h; rw [h.1]; exact .esc _ _ _ _ (by decide) hl
  split
  · exact means_uEscape (u := [a]) (by omega) (.one a ha) hl
  · rename_i h1 _ _ _ _ _ h2
    refine .char a.toNat [a] l s (.one a ha) ?_ (fun e => h1 (.inl (UInt8.toNat_inj.1 e))) (fun e => h1 (.inr (UInt8.toNat_inj.1 e))) hl
    exact Nat.not_lt.1 fun h => h2 (.inl h)

theorem escAux_means {s : Bytes} (h : Utf8Text s) : ∀ f, s.length ≤ f → LitMeans (escAux f s) s := by
  induction h with
  | nil => intro f _; cases f <;> exact .nil
  | cons r c s hc _ ih =>
    intro f hf
    by_cases hl : c.length = 1
    · cases hc with
      | two | three | four => simp at hl
      | one a ha =>
        cases f with
        | zero => simp at hf
        | succ f =>
          have e : escAux (f + 1) ([a] ++ s) = escByte a ++ escAux f s := by
            simp only [List.cons_append, List.nil_append, escAux]; rw [if_pos (by rw [u8_lt_iff]; exact ha)]
          rw [e]
          exact means_escByte a ha (ih f (by simp at hf; omega))
    · obtain ⟨b, t, rfl, hb⟩ := char_head hc hl
      have e := decodeRune_char hc s
      have d : (b :: t ++ s).drop (b :: t).length = s := List.drop_left
      have d' : (b :: t ++ s).take (b :: t).length = b :: t := List.take_left
      cases f with
      | zero => simp at hf
      | succ f =>
        rw [List.length_append, List.length_cons] at hf
        have hm := ih f (by omega)
        simp only [List.cons_append] at e d d' ⊢
        rw [escAux, if_neg (by rw [u8_lt_iff]; change ¬ b.toNat < 128; omega)]
        simp only [e, d, d']
        have hne : (r, (b :: t).length) ≠ runeError := fun h => hl (congrArg Prod.snd h)
        rw [if_neg hne]
        have hr : 128 ≤ r := by
          cases hc with
          | one a ha => simp at hl
          | two => omega
          | three => omega
          | four => omega
        by_cases h2 : r = 0x2028 ∨ r = 0x2029
        · rw [if_pos h2]
          exact means_uEscape (by omega) hc hm
        · rw [if_neg h2]
          exact .char r (b :: t) _ s hc (by omega) (by omega) (by omega) hm

theorem escape_means {s : Bytes} (h : Utf8Text s) : LitMeans (escapeStr s) s := escAux_means h _ (Nat.le_refl _)

theorem escape_lit (s : Bytes) : LitOf s (escapeStr s) := ⟨lit_escape s, escape_means, fun _ h => escape_readAs h⟩
theorem escape_doc (s : Bytes) : StringDoc s (.str (escapeStr s)) := ⟨_, rfl, escape_lit s⟩

/-! ## Numbers -/

theorem fmtNat_int (n : Nat) : fmtNat n = asc "0" ∨ (DigitSeq (fmtNat n) ∧ (fmtNat n).head? ≠ some 48) := by
  by_cases h : n = 0
  · subst h; left; decide
  · obtain ⟨h1, _, h3, h4⟩ := fmtNat_spec n
    exact Or.inr ⟨⟨h3, fun c hc => digit_range c (h1 c hc)⟩, h4 h⟩

theorem fmtNat_lit (n : Nat) : NumLit (fmtNat n) := ⟨[], fmtNat n, [], [], by simp, Or.inl rfl, fmtNat_int n, Or.inl rfl, Or.inl rfl⟩

theorem fmtNat_intText (n : Nat) : IntText (fmtNat n) n := by
  obtain ⟨h1, h2, h3, h4⟩ := fmtNat_spec n
  exact ⟨fmtNat_lit n, fmtNat n, h1, by rw [decValue_eq, h2]; rfl, Or.inl ⟨by omega, rfl⟩⟩
theorem fmtInt_intText (i : Int) : IntText (fmtInt i) i := by
  obtain ⟨h1, h2, h3, h4⟩ := fmtNat_spec i.natAbs
  unfold fmtInt
  split
  · exact ⟨⟨asc "-", fmtNat i.natAbs, [], [], by simp [asc], Or.inr rfl, fmtNat_int _, Or.inl rfl, Or.inl rfl⟩, fmtNat i.natAbs, h1, by rw [decValue_eq, h2], Or.inr ⟨by omega, rfl⟩⟩
  · exact ⟨fmtNat_lit _, fmtNat i.natAbs, h1, by rw [decValue_eq, h2], Or.inl ⟨by omega, rfl⟩⟩

theorem finite32_iff (v : UInt32) : finite32 v = true ↔ Finite32 v := by
  have : (v >>> 23 &&& 0xff).toNat = v.toNat / 2 ^ 23 % 2 ^ 8 := by
    rw [UInt32.toNat_and, UInt32.toNat_shiftRight]
    show (v.toNat >>> 23) &&& (2 ^ 8 - 1) = _
    rw [Nat.and_two_pow_sub_one_eq_mod, Nat.shiftRight_eq_div_pow]
  unfold finite32 Finite32
  rw [bne_iff_ne, ne_eq, ← UInt32.toNat_inj, this]
  exact ⟨fun h => ⟨v.toNat_lt, h⟩, fun h => h.2⟩
theorem finite64_iff (v : UInt64) : finite64 v = true ↔ Finite64 v := by
  have : (v >>> 52 &&& 0x7ff).toNat = v.toNat / 2 ^ 52 % 2 ^ 11 := by
    rw [UInt64.toNat_and, UInt64.toNat_shiftRight]
    show (v.toNat >>> 52) &&& (2 ^ 11 - 1) = _
    rw [Nat.and_two_pow_sub_one_eq_mod, Nat.shiftRight_eq_div_pow]
  unfold finite64 Finite64
  rw [bne_iff_ne, ne_eq, ← UInt64.toNat_inj, this]
  exact ⟨fun h => ⟨v.toNat_lt, h⟩, fun h => h.2⟩

theorem decimals_mod (s : UInt64) : Symbol.decimals s = s.toNat % 256 := by
  unfold Symbol.decimals
  rw [UInt64.toNat_and]
  show s.toNat &&& (2 ^ 8 - 1) = _
  rw [Nat.and_two_pow_sub_one_eq_mod]

/-! ## Documents that are valid -/

mutual
/-- As JVal.Fine, with any numbers -/
def JVal.Sound : Nat → JVal → Prop
  | _, .null => True
  | _, .bool _ => True
  | _, .num l => NumLit l
  | _, .str l => StrLit l
  | n, .arr xs => 1 ≤ n ∧ soundList (n - 1) xs
  | n, .obj ms => 1 ≤ n ∧ soundMembers (n - 1) ms
def soundList : Nat → List JVal → Prop
  | _, [] => True
  | n, x :: xs => x.Sound n ∧ soundList n xs
def soundMembers : Nat → List (Bytes × JVal) → Prop
  | _, [] => True
  | n, (k, x) :: ms => StrLit k ∧ x.Sound n ∧ soundMembers n ms
end

theorem blank_nil : Blank [] := fun _ h => by cases h

mutual
theorem sound_text : (j : JVal) → (n : Nat) → j.Sound n → JText n j j.print
  | .null, n, _ => .null n
  | .bool true, n, _ => .true n
  | .bool false, n, _ => .false n
  | .num l, n, h => .num n l h
  | .str l, n, h => .str n l h
  | .arr [], n + 1, _ => .empty n [] blank_nil
  | .arr (x :: xs), n + 1, h => .arr n _ _ (sound_elems x xs n h.2.1 h.2.2)
  | .obj [], n + 1, _ => .void n [] blank_nil
  | .obj ((k, x) :: ms), n + 1, h => .obj n _ _ (sound_members k x ms n h.2.1 h.2.2.1 h.2.2.2)
theorem sound_elems : (x : JVal) → (xs : List JVal) → (n : Nat) → x.Sound n → soundList n xs → JElems n (x :: xs) (x.print ++ printMore xs)
  | x, [], n, h, _ => .one n x [] x.print [] blank_nil (sound_text x n h) blank_nil
  | x, y :: xs, n, h, hs => .more n x (y :: xs) [] x.print [] _ blank_nil (sound_text x n h) blank_nil (sound_elems y xs n hs.1 hs.2)
theorem sound_members : (k : Bytes) → (x : JVal) → (ms : List (Bytes × JVal)) → (n : Nat) → StrLit k → x.Sound n → soundMembers n ms →
    JMembers n ((k, x) :: ms) (34 :: (k ++ 34 :: 58 :: (x.print ++ printMoreMembers ms)))
  | k, x, [], n, hk, h, _ => .one n k x [] [] [] x.print [] blank_nil hk blank_nil blank_nil (sound_text x n h) blank_nil
  | k, x, (k', y) :: ms, n, hk, h, hs => .more n k x _ [] [] [] x.print [] _ blank_nil hk blank_nil blank_nil (sound_text x n h) blank_nil (sound_members k' y ms n hs.1 hs.2.1 hs.2.2)
end

/-! ## Sorting -/

theorem insertKey_perm {α : Type} (e : Bytes × α) : (m : List (Bytes × α)) → (insertKey e m).Perm (e :: m)
  | [] => .refl _
  | d :: m => by
    unfold insertKey
    split
    · exact ((insertKey_perm e m).cons d).trans (.swap _ _ _)
    · exact .refl _
theorem sortKeys_perm {α : Type} : (m : List (Bytes × α)) → (sortKeys m).Perm m
  | [] => .refl _
  | e :: m => (insertKey_perm e _).trans ((sortKeys_perm m).cons e)

theorem bytes_lt_of {a b : Bytes} (h : ¬ a < b) (hne : a ≠ b) : b < a := by
  rcases Std.lt_trichotomy a b with h' | h' | h'
  · exact absurd h' h
  · exact absurd h' hne
  · exact h'

theorem insertKey_sorted {α : Type} (e : Bytes × α) : (m : List (Bytes × α)) → m.Pairwise (fun d e => d.1 < e.1) → e.1 ∉ m.map Prod.fst →
    (insertKey e m).Pairwise (fun d e => d.1 < e.1)
  | [], _, _ => by simp [insertKey]
  | d :: m, h, hn => by
    obtain ⟨h1, h2⟩ := List.pairwise_cons.1 h
    simp only [List.map_cons, List.mem_cons, not_or] at hn
    unfold insertKey
    split
    · rename_i hlt
      refine List.pairwise_cons.2 ⟨fun x hx => ?_, insertKey_sorted e m h2 hn.2⟩
      rcases List.mem_cons.1 ((insertKey_perm e m).mem_iff.1 hx) with rfl | hx
      · exact hlt
      · exact h1 x hx
    · rename_i hlt
      have hed : e.1 < d.1 := bytes_lt_of hlt (Ne.symm hn.1)
      refine List.pairwise_cons.2 ⟨fun x hx => ?_, h⟩
      rcases List.mem_cons.1 hx with rfl | hx
      · exact hed
      · exact List.lt_trans hed (h1 x hx)
theorem sortKeys_sorted {α : Type} : (m : List (Bytes × α)) → (m.map Prod.fst).Nodup → (sortKeys m).Pairwise (fun d e => d.1 < e.1)
  | [], _ => .nil
  | e :: m, h => by
    obtain ⟨h1, h2⟩ := List.nodup_cons.1 h
    exact insertKey_sorted e _ (sortKeys_sorted m h2) fun hm => h1 (((sortKeys_perm m).map Prod.fst).mem_iff.1 hm)

theorem sorted_unique {α : Type} : (m n : List (Bytes × α)) → m.Perm n → m.Pairwise (fun d e => d.1 < e.1) → n.Pairwise (fun d e => d.1 < e.1) → m = n
  | [], n, hp, _, _ => hp.nil_eq
  | d :: m, [], hp, _, _ => absurd hp.symm.nil_eq (by simp)
  | d :: m, e :: n, hp, hm, hn => by
    obtain ⟨hm1, hm2⟩ := List.pairwise_cons.1 hm
    obtain ⟨hn1, hn2⟩ := List.pairwise_cons.1 hn
    have hde : d = e := by
      rcases List.mem_cons.1 (hp.mem_iff.1 (List.mem_cons_self (a := d))) with h | h
      · exact h
      · rcases List.mem_cons.1 (hp.symm.mem_iff.1 (List.mem_cons_self (a := e))) with h' | h'
        · exact h'.symm
        · exact absurd (List.lt_trans (hn1 d h) (hm1 e h')) (List.lt_irrefl _)
    subst hde
    rw [sorted_unique m n (hp.cons_inv) hm2 hn2]

theorem sortKeys_congr {α : Type} {m n : List (Bytes × α)} (h : m.Perm n) (hk : (m.map Prod.fst).Nodup) : sortKeys m = sortKeys n :=
  sorted_unique _ _ (((sortKeys_perm m).trans h).trans (sortKeys_perm n).symm) (sortKeys_sorted m hk)
    (sortKeys_sorted n (((h.map Prod.fst).nodup_iff).1 hk))

theorem insertKey_map {α β : Type} (f : α → β) (e : Bytes × α) : (m : List (Bytes × α)) →
    insertKey (e.1, f e.2) (m.map fun p => (p.1, f p.2)) = (insertKey e m).map fun p => (p.1, f p.2)
  | [] => rfl
  | d :: m => by
    simp only [List.map_cons, insertKey]
    split
    · rw [insertKey_map f e m]; rfl
    · rfl
theorem sortKeys_map {α β : Type} (f : α → β) : (m : List (Bytes × α)) → sortKeys (m.map fun p => (p.1, f p.2)) = (sortKeys m).map fun p => (p.1, f p.2)
  | [] => rfl
  | e :: m => by
    simp only [List.map_cons, sortKeys]
    rw [sortKeys_map f m, insertKey_map f e]

theorem jsonEntries_map : (m : List (Bytes × AV)) → jsonEntries m = m.map fun p => (p.1, p.2.json)
  | [] => rfl
  | (k, x) :: m => by rw [jsonEntries, jsonEntries_map m]; rfl
theorem jsonEach_map : (m : List AV) → jsonEach m = m.map (AV.json)
  | [] => rfl
  | x :: m => by rw [jsonEach, jsonEach_map m]; rfl

/-! ## Chain types -/

theorem jsonAny_text (x : TextTy) (hx : x ≠ .signature) (v : x.Val) : x.jsonAny v = (x.marshal v).bind fun s => .val (some (.str (escapeStr s))) := by
  unfold TextTy.jsonAny TextTy.marshalJSON
  rw [dif_neg (fun h => hx h.1)]
  cases x.marshal v <;> rfl

theorem jsonAny_val (x : TextTy) (hx : x ≠ .signature) (v : x.Val) {s : Bytes} (h : x.marshal v = .val s) :
    ∃ j, x.jsonAny v = .val (some j) ∧ x.Doc v j ∧ j.Sound 1 := by
  refine ⟨.str (escapeStr s), ?_, ⟨s, h, escape_doc s⟩, lit_escape s⟩
  rw [jsonAny_text x hx, h]; rfl

theorem pubKey_val (pk : PubKey) : ∃ s, PubKey.marshalText pk = .val s := by
  obtain ⟨body, h1, _⟩ := checkEncodeEosio_text pk.data (keyTypeString pk.type)
  refine ⟨asc "PUB_" ++ keyTypeString pk.type ++ asc "_" ++ body, ?_⟩
  show pk.string = _
  unfold PubKey.string
  rw [h1]

theorem asset_val (a : Asset) (h : a.symbol.toNat % 256 < 64) : ∃ s, a.string = .val s := by
  cases hs : a.string with
  | val s => exact ⟨s, rfl⟩
  | panic w =>
    have := (C19_panics_iff a).1 ⟨w, hs⟩
    rw [decimals_mod] at this
    omega
theorem asset_panics (a : Asset) (h : ¬ a.symbol.toNat % 256 < 64) : ∃ w, a.string = .panic w :=
  (C19_panics_iff a).2 (by rw [decimals_mod]; omega)

theorem uint_doc (v : UInt64) : Uint64Doc v.toNat (compactJSON (writeUintJSON v)) ∧ (compactJSON (writeUintJSON v)).Sound 1 := by
  have hd := (fmtNat_spec v.toNat).1
  have hl : StrLit (fmtNat v.toNat) := by
    generalize fmtNat v.toNat = s at hd
    induction s with
    | nil => exact .nil
    | cons c s ih =>
      have hc := hd c (by simp)
      refine .char c s (by omega) ?_ ?_ (ih fun x hx => hd x (by simp [hx]))
      · rintro rfl; revert hc; decide
      · rintro rfl; revert hc; decide
  unfold writeUintJSON
  split
  · rename_i h
    have hp : compactJSON ([34] ++ fmtNat v.toNat ++ [34]) = .str (fmtNat v.toNat) := by
      unfold compactJSON
      have := jsonParse_print (.str (fmtNat v.toNat)) hl
      have hp : (JVal.str (fmtNat v.toNat)).print = [34] ++ fmtNat v.toNat ++ [34] := by simp [JVal.print]
      rw [hp] at this; rw [this]; rfl
    rw [hp]
    exact ⟨⟨_, fmtNat_intText _, Or.inr ⟨by omega, rfl⟩⟩, hl⟩
  · rename_i h
    have hp : compactJSON (fmtNat v.toNat) = .num (fmtNat v.toNat) := by
      unfold compactJSON
      have := jsonParse_print (.num (fmtNat v.toNat)) ⟨_, rfl⟩
      have hp : (JVal.num (fmtNat v.toNat)).print = fmtNat v.toNat := by simp [JVal.print]
      rw [hp] at this; rw [this]; rfl
    rw [hp]
    exact ⟨⟨_, fmtNat_intText _, Or.inl ⟨by omega, rfl⟩⟩, fmtNat_lit _⟩

theorem extendedAsset_json (q : Asset) (c : UInt64) {s : Bytes} (h : q.string = .val s) :
    extendedAssetTy.marshal false ((q, c, ()) : Asset × UInt64 × Unit) = .val (.obj [(asc "quantity", .str (escapeStr s)), (asc "contract", .str (escapeStr (Name.string c)))]) := by
  have h1 : TextTy.marshalJSON .asset false q = .val (.str (escapeStr s)) := by
    unfold TextTy.marshalJSON
    rw [dif_neg (fun h => nomatch h.1)]
    show (q.string).bind _ = _
    rw [h]; rfl
  have h2 : TextTy.marshalJSON .name false c = .val (.str (escapeStr (Name.string c))) := by
    unfold TextTy.marshalJSON
    rw [dif_neg (fun h => nomatch h.1)]
    rfl
  have e1 : escapeStr (asc "quantity") = asc "quantity" := by decide +kernel
  have e2 : escapeStr (asc "contract") = asc "contract" := by decide +kernel
  simp only [extendedAssetTy, JTy.marshal, JFields.marshal, JTy.name, Bool.false_and, Bool.false_eq_true, if_false]
  rw [h1, h2, ← e1, ← e2]
  rfl
theorem extendedAsset_panics (q : Asset) (c : UInt64) {w : String} (h : q.string = .panic w) :
    extendedAssetTy.marshal false ((q, c, ()) : Asset × UInt64 × Unit) = .panic w := by
  have h1 : TextTy.marshalJSON .asset false q = .panic w := by
    unfold TextTy.marshalJSON
    rw [dif_neg (fun h => nomatch h.1)]
    show (q.string).bind _ = _
    rw [h]; rfl
  simp only [extendedAssetTy, JTy.marshal, JFields.marshal, JTy.name, Bool.false_and, Bool.false_eq_true, if_false]
  rw [h1]; rfl

theorem sig_json (s : Sig) : TextTy.signature.jsonAny s = .val (some (sigStruct s)) := by
  unfold TextTy.jsonAny TextTy.marshalJSON
  rw [dif_pos ⟨rfl, rfl⟩]; rfl

theorem asset_doc (a : Asset) (h : a.symbol.toNat % 256 < 64) : ∃ s, a.string = .val s ∧ TextTy.asset.Doc a (.str (escapeStr s)) := by
  obtain ⟨s, hs⟩ := asset_val a h
  exact ⟨s, hs, s, hs, escape_doc s⟩

theorem key_lit (s : Bytes) (h : StrLit s) (n : Nat) (j : JVal) (t : Bytes) (ht : StrLit t) (i : JVal) (hj : j.Sound n) (hi : i.Sound n) : (JVal.obj [(s, j), (t, i)]).Sound (n + 1) :=
  ⟨by omega, h, hj, ht, hi, trivial⟩
theorem asc_lit {s : Bytes} (h : escapeStr s = s) : StrLit s := h ▸ lit_escape s

theorem chain_json (c : ChainTy) (v : c.Val) (h : c.Writable v) : ∃ j, c.json v = .val (some j) ∧ c.Doc v j ∧ j.Sound 1 := by
  cases c with
  | asset =>
    obtain ⟨s, hs⟩ := asset_val v h
    exact jsonAny_val .asset (by decide) v hs
  | publicKey =>
    obtain ⟨s, hs⟩ := pubKey_val v
    exact jsonAny_val .publicKey (by decide) v hs
  | signature =>
    let sg : Sig := v
    refine ⟨sigStruct sg, sig_json sg, ⟨_, _, rfl, ⟨_, rfl, fmtNat_intText _⟩, escape_doc _⟩, ?_⟩
    exact key_lit _ (asc_lit (by decide +kernel)) 0 _ _ (asc_lit (by decide +kernel)) _ (fmtNat_lit _) (lit_escape _)
  | extendedAsset =>
    let ea : ExtendedAsset := v
    obtain ⟨s, hs, hd⟩ := asset_doc ea.quantity h
    refine ⟨.obj [(asc "quantity", .str (escapeStr s)), (asc "contract", .str (escapeStr (Name.string ea.contract)))], ?_, ⟨_, _, rfl, hd, _, rfl, escape_doc _⟩, ?_⟩
    · show (extendedAssetTy.marshal false ((ea.quantity, ea.contract, ()) : Asset × UInt64 × Unit)).bind _ = _
      rw [extendedAsset_json _ _ hs]; rfl
    · exact key_lit _ (asc_lit (by decide +kernel)) 0 _ _ (asc_lit (by decide +kernel)) _ (lit_escape _) (lit_escape _)
  | uint64 => exact ⟨_, rfl, uint_doc v⟩
  | blockNum =>
    let n : UInt32 := v
    have hd := uint_doc n.toUInt64
    rw [UInt32.toNat_toUInt64] at hd
    exact ⟨_, rfl, hd⟩
  | action | permissionLevel | transaction | transactionExtension | transactionHeader => exact h.elim
  | blob => exact jsonAny_val .blob (by decide) v rfl
  | blockTimestamp => exact jsonAny_val .blockTimestamp (by decide) v rfl
  | bytes => exact jsonAny_val .bytes (by decide) v rfl
  | checksum160 => exact jsonAny_val .checksum160 (by decide) v rfl
  | checksum256 => exact jsonAny_val .checksum256 (by decide) v rfl
  | checksum512 => exact jsonAny_val .checksum512 (by decide) v rfl
  | float128 => exact jsonAny_val .float128 (by decide) v rfl
  | int128 => exact jsonAny_val .int128 (by decide) v rfl
  | uint128 => exact jsonAny_val .uint128 (by decide) v rfl
  | name => exact jsonAny_val .name (by decide) v rfl
  | symbol => exact jsonAny_val .symbol (by decide) v rfl
  | symbolCode => exact jsonAny_val .symbolCode (by decide) v rfl
  | timePoint => exact jsonAny_val .timePoint (by decide) v rfl
  | timePointSec => exact jsonAny_val .timePointSec (by decide) v rfl

theorem chain_written (c : ChainTy) (v : c.Val) {j : JVal} (h : c.json v = .val (some j)) : c.Writable v := by
  cases c with
  | asset =>
    let a : Asset := v
    show a.symbol.toNat % 256 < 64
    refine Decidable.by_contra fun hn => ?_
    obtain ⟨w, hw⟩ := asset_panics a hn
    have e : TextTy.asset.jsonAny v = .panic w := (jsonAny_text .asset (by decide) v).trans (congrArg (fun p : Pan Bytes => p.bind fun s => Pan.val (some (JVal.str (escapeStr s)))) hw)
    exact nomatch e.symm.trans h
  | extendedAsset =>
    let ea : ExtendedAsset := v
    show ea.quantity.symbol.toNat % 256 < 64
    refine Decidable.by_contra fun hn => ?_
    obtain ⟨w, hw⟩ := asset_panics ea.quantity hn
    have h : (extendedAssetTy.marshal false ((ea.quantity, ea.contract, ()) : Asset × UInt64 × Unit)).bind (fun j => Pan.val (some j)) = .val (some j) := h
    rw [extendedAsset_panics _ _ hw] at h
    exact nomatch h
  | action | permissionLevel | transaction | transactionExtension | transactionHeader => exact nomatch h
  | _ => trivial

/-! ## Values -/

theorem seqElems_vals : (js : List JVal) → seqElems (js.map fun j => .val (some j)) = .val (some js)
  | [] => rfl
  | j :: js => by
    show (seqElems (js.map fun j => .val (some j))).bind _ = _
    rw [seqElems_vals js]; rfl
theorem seqMembers_vals : (ms : List (Bytes × JVal)) → seqMembers (ms.map fun p => (p.1, .val (some p.2))) = .val (some (ms.map fun p => (escapeStr p.1, p.2)))
  | [] => rfl
  | p :: ms => by
    show (seqMembers (ms.map fun p => (p.1, .val (some p.2)))).bind _ = _
    rw [seqMembers_vals ms]; rfl

theorem basic_json (b : Basic) (v : b.Val) (h : (AV.basic b v).Writable) :
    ∃ j, b.json v = some j ∧ b.Doc v j ∧ j.Sound 0 := by
  cases b with
  | bool => exact ⟨_, rfl, rfl, trivial⟩
  | string => exact ⟨_, rfl, escape_doc _, lit_escape _⟩
  | u8 | u16 | u32 | u64 | uint => exact ⟨_, rfl, ⟨_, rfl, fmtNat_intText _⟩, fmtNat_lit _⟩
  | i8 | i16 | i32 | i64 | int => exact ⟨_, rfl, ⟨_, rfl, fmtInt_intText _⟩, (fmtInt_intText _).1⟩
  | f32 =>
    have h : Finite32 v := h
    refine ⟨_, ?_, (f32_text h).1, (f32_text h).2⟩
    show (if finite32 v then _ else _) = _
    rw [if_pos ((finite32_iff v).2 h)]
  | f64 =>
    have h : Finite64 v := h
    refine ⟨_, ?_, (f64_text h).1, (f64_text h).2.1⟩
    show (if finite64 v then _ else _) = _
    rw [if_pos ((finite64_iff v).2 h)]

mutual
theorem sound_mono : (j : JVal) → (n m : Nat) → n ≤ m → j.Sound n → j.Sound m
  | .null, _, _, _, _ => trivial
  | .bool _, _, _, _, _ => trivial
  | .num _, _, _, _, h => h
  | .str _, _, _, _, h => h
  | .arr xs, n, m, hm, h => ⟨Nat.le_trans h.1 hm, soundList_mono xs _ _ (Nat.sub_le_sub_right hm 1) h.2⟩
  | .obj xs, n, m, hm, h => ⟨Nat.le_trans h.1 hm, soundMembers_mono xs _ _ (Nat.sub_le_sub_right hm 1) h.2⟩
theorem soundList_mono : (xs : List JVal) → (n m : Nat) → n ≤ m → soundList n xs → soundList m xs
  | [], _, _, _, _ => trivial
  | x :: xs, n, m, hm, h => ⟨sound_mono x n m hm h.1, soundList_mono xs n m hm h.2⟩
theorem soundMembers_mono : (xs : List (Bytes × JVal)) → (n m : Nat) → n ≤ m → soundMembers n xs → soundMembers m xs
  | [], _, _, _, _ => trivial
  | (_, x) :: xs, n, m, hm, h => ⟨h.1, sound_mono x n m hm h.2.1, soundMembers_mono xs n m hm h.2.2⟩
end

theorem docMembers_of (n : Nat) : (z : List (Bytes × AV × JVal)) → (∀ p ∈ z, p.2.1.Doc p.2.2 ∧ p.2.2.Sound n) →
    DocMembers (z.map fun p => (p.1, p.2.1)) (z.map fun p => (escapeStr p.1, p.2.2)) ∧ soundMembers n (z.map fun p => (escapeStr p.1, p.2.2))
  | [], _ => ⟨.nil, trivial⟩
  | p :: z, h => by
    have hp := h p List.mem_cons_self
    have ih := docMembers_of n z fun q hq => h q (List.mem_cons_of_mem _ hq)
    exact ⟨.cons _ _ _ _ _ _ (escape_lit _) hp.1 ih.1, lit_escape _, hp.2, ih.2⟩

mutual
theorem av_json : (v : AV) → (n : Nat) → v.depth ≤ n → v.Keys → v.Writable → ∃ j, v.json = .val (some j) ∧ v.Doc j ∧ j.Sound n
  | .nil, n, _, _, _ => ⟨.null, rfl, .nil, trivial⟩
  | .basic b v, n, _, _, h => by
    obtain ⟨j, h1, h2, h3⟩ := basic_json b v h
    exact ⟨j, by rw [AV.json, h1], .basic b v j h2, sound_mono j 0 n (Nat.zero_le _) h3⟩
  | .byteSlice v, n, _, _, _ => ⟨.str (escapeStr (b64Encode v)), rfl, .byteSlice v _ (escape_doc _), lit_escape _⟩
  | .chain c v, n, hn, _, h => by
    obtain ⟨j, h1, h2, h3⟩ := chain_json c v h
    exact ⟨j, h1, .chain c v j h2, sound_mono j 1 n hn h3⟩
  | .slice xs, n, hn, hk, h => by
    have hn : depthAll xs + 1 ≤ n := hn
    obtain ⟨js, h1, h2, h3⟩ := each_json xs (n - 1) (by omega) hk h
    refine ⟨.arr js, ?_, .slice xs js h2, by omega, h3⟩
    rw [AV.json, h1, seqElems_vals]; rfl
  | .map m, n, hn, hk, h => by
    have hn : depthEntries m + 1 ≤ n := hn
    obtain ⟨z, h1, h2, h3⟩ := entries_json m (n - 1) (by omega) hk.2 h
    have hs : sortKeys (jsonEntries m) = (sortKeys z).map fun p => (p.1, .val (some p.2.2)) := by rw [h2, sortKeys_map (fun q : AV × JVal => (.val (some q.2) : JOut))]
    have hm : sortKeys m = (sortKeys z).map fun p => (p.1, p.2.1) := by rw [h1, sortKeys_map (fun q : AV × JVal => q.1)]
    have hz := docMembers_of (n - 1) (sortKeys z) fun p hp => h3 p ((sortKeys_perm z).mem_iff.1 hp)
    refine ⟨.obj ((sortKeys z).map fun p => (escapeStr p.1, p.2.2)), ?_, .map m (sortKeys m) _ (sortKeys_perm m) (sortKeys_sorted m hk.1) ?_, by omega, hz.2⟩
    · have := seqMembers_vals ((sortKeys z).map fun p => (p.1, p.2.2))
      rw [List.map_map, List.map_map] at this
      rw [AV.json, hs]
      exact (congrArg (fun p : Pan (Option (List (Bytes × JVal))) => p.bind fun r => Pan.val (r.map JVal.obj)) this)
    · rw [hm]; exact hz.1
theorem each_json : (xs : List AV) → (n : Nat) → depthAll xs ≤ n → keysAll xs → writableAll xs →
    ∃ js : List JVal, jsonEach xs = js.map (fun j => .val (some j)) ∧ DocEach xs js ∧ soundList n js
  | [], n, _, _, _ => ⟨[], rfl, .nil, trivial⟩
  | x :: xs, n, hn, hk, h => by
    have hn : max x.depth (depthAll xs) ≤ n := hn
    obtain ⟨j, h1, h2, h3⟩ := av_json x n (by omega) hk.1 h.1
    obtain ⟨js, g1, g2, g3⟩ := each_json xs n (by omega) hk.2 h.2
    exact ⟨j :: js, by rw [jsonEach, h1, g1]; rfl, .cons _ _ _ _ h2 g2, h3, g3⟩
theorem entries_json : (m : List (Bytes × AV)) → (n : Nat) → depthEntries m ≤ n → keysEntries m → writableEntries m →
    ∃ z : List (Bytes × AV × JVal), m = z.map (fun p => (p.1, p.2.1)) ∧ jsonEntries m = z.map (fun p => (p.1, .val (some p.2.2))) ∧ ∀ p ∈ z, p.2.1.Doc p.2.2 ∧ p.2.2.Sound n
  | [], n, _, _, _ => ⟨[], rfl, rfl, fun _ h => by cases h⟩
  | (k, x) :: m, n, hn, hk, h => by
    have hn : max x.depth (depthEntries m) ≤ n := hn
    obtain ⟨j, h1, h2, h3⟩ := av_json x n (by omega) hk.1 h.1
    obtain ⟨z, g1, g2, g3⟩ := entries_json m n (by omega) hk.2 h.2
    refine ⟨(k, x, j) :: z, by rw [List.map_cons, ← g1], by rw [jsonEntries, h1, g2]; rfl, fun p hp => ?_⟩
    rcases List.mem_cons.1 hp with rfl | hp
    · exact ⟨h2, h3⟩
    · exact g3 p hp
end

theorem seqElems_some : (ps : List JOut) → {js : List JVal} → seqElems ps = .val (some js) → ∀ p ∈ ps, ∃ j, p = .val (some j)
  | [], _, _, p, hp => by cases hp
  | q :: ps, js, h, p, hp => by
    rw [seqElems] at h
    cases hq : q with
    | panic w => rw [hq] at h; exact nomatch h
    | val r =>
      cases r with
      | none => rw [hq] at h; exact nomatch h
      | some j =>
        rw [hq] at h
        rcases List.mem_cons.1 hp with rfl | hp
        · exact ⟨j, hq⟩
        · have h : (seqElems ps).bind (fun r => .val (r.map (j :: ·))) = .val (some js) := h
          cases hs : seqElems ps with
          | panic w => rw [hs] at h; exact nomatch h
          | val r =>
            cases r with
            | none => rw [hs] at h; exact nomatch h
            | some ks => exact seqElems_some ps hs p hp
theorem seqMembers_some : (ps : List (Bytes × JOut)) → {js : List (Bytes × JVal)} → seqMembers ps = .val (some js) → ∀ p ∈ ps, ∃ j, p.2 = .val (some j)
  | [], _, _, p, hp => by cases hp
  | q :: ps, js, h, p, hp => by
    rw [seqMembers] at h
    cases hq : q.2 with
    | panic w => rw [hq] at h; exact nomatch h
    | val r =>
      cases r with
      | none => rw [hq] at h; exact nomatch h
      | some j =>
        rw [hq] at h
        rcases List.mem_cons.1 hp with rfl | hp
        · exact ⟨j, hq⟩
        · have h : (seqMembers ps).bind (fun r => .val (r.map ((escapeStr q.1, j) :: ·))) = .val (some js) := h
          cases hs : seqMembers ps with
          | panic w => rw [hs] at h; exact nomatch h
          | val r =>
            cases r with
            | none => rw [hs] at h; exact nomatch h
            | some ks => exact seqMembers_some ps hs p hp

theorem bindMap_some {α β : Type} {p : Pan (Option α)} {f : α → β} {b : β} (h : p.bind (fun r => .val (r.map f)) = .val (some b)) : ∃ a, p = .val (some a) ∧ f a = b := by
  cases p with
  | panic w => exact nomatch h
  | val r =>
    cases r with
    | none => exact nomatch h
    | some a => exact ⟨a, rfl, by injection h with h; injection h⟩

mutual
theorem av_written : (v : AV) → (j : JVal) → v.json = .val (some j) → v.Writable
  | .nil, _, _ => trivial
  | .basic b v, j, h => by
    cases b with
    | f32 =>
      have h : (Pan.val (if finite32 v then some (JVal.num (binary32.text v.toNat)) else none) : JOut) = .val (some j) := h
      refine (finite32_iff v).1 (Decidable.by_contra fun hn => ?_)
      rw [if_neg hn] at h
      exact nomatch h
    | f64 =>
      have h : (Pan.val (if finite64 v then some (JVal.num (binary64.text v.toNat)) else none) : JOut) = .val (some j) := h
      refine (finite64_iff v).1 (Decidable.by_contra fun hn => ?_)
      rw [if_neg hn] at h
      exact nomatch h
    | _ => trivial
  | .byteSlice _, _, _ => trivial
  | .chain c v, j, h => chain_written c v h
  | .slice xs, j, h => by
    rw [AV.json] at h
    obtain ⟨js, hs, _⟩ := bindMap_some h
    exact all_written xs fun p hp => seqElems_some _ hs p hp
  | .map m, j, h => by
    rw [AV.json] at h
    obtain ⟨js, hs, _⟩ := bindMap_some h
    exact entries_written m fun p hp => seqMembers_some _ hs p ((sortKeys_perm _).mem_iff.2 hp)
  | .other, _, h => nomatch h
theorem all_written : (xs : List AV) → (∀ p ∈ jsonEach xs, ∃ j, p = .val (some j)) → writableAll xs
  | [], _ => trivial
  | x :: xs, h => by
    obtain ⟨j, hj⟩ := h (x.json) List.mem_cons_self
    exact ⟨av_written x j hj, all_written xs fun p hp => h p (List.mem_cons_of_mem _ hp)⟩
theorem entries_written : (m : List (Bytes × AV)) → (∀ p ∈ jsonEntries m, ∃ j, p.2 = .val (some j)) → writableEntries m
  | [], _ => trivial
  | (k, x) :: m, h => by
    obtain ⟨j, hj⟩ := h (k, x.json) List.mem_cons_self
    exact ⟨av_written x j hj, entries_written m fun p hp => h p (List.mem_cons_of_mem _ hp)⟩
end

/-! ## The order of entries -/

mutual
theorem same_json : {v w : AV} → v.Same w → v.Keys → v.json = w.json
  | _, _, .refl _, _ => rfl
  | _, _, .slice xs ys h, hk => by rw [AV.json, AV.json, sameEach_json h hk]
  | _, _, .map m m' n hp h, hk => by
    obtain ⟨h1, h2⟩ := hk
    have hk' : keysEntries m' := (keysEntries_iff m').2 fun p hp' => (keysEntries_iff m).1 h2 p (hp.mem_iff.2 hp')
    have e := sameEntries_json h hk'
    have : sortKeys (jsonEntries m) = sortKeys (jsonEntries m') := by
      rw [jsonEntries_map, jsonEntries_map]
      refine sortKeys_congr (hp.map _) ?_
      rw [List.map_map]; exact h1
    rw [AV.json, AV.json, this, e]
theorem sameEach_json : {v w : List AV} → SameEach v w → keysAll v → jsonEach v = jsonEach w
  | _, _, .nil, _ => rfl
  | _, _, .cons x y xs ys h hs, hk => by rw [jsonEach, jsonEach, same_json h hk.1, sameEach_json hs hk.2]
theorem sameEntries_json : {v w : List (Bytes × AV)} → SameEntries v w → keysEntries v → jsonEntries v = jsonEntries w
  | _, _, .nil, _ => rfl
  | _, _, .cons k x y xs ys h hs, hk => by rw [jsonEntries, jsonEntries, same_json h hk.1, sameEntries_json hs hk.2]
end

end Verif
