import Verif.Spec.Panics
import Verif.Lemmas.Safe
import Verif.Lemmas.ReflectStrict
import Verif.Lemmas.Keys
import Verif.Props.Prim
/-! # Functions that do not panic on tame input -/
namespace Verif

theorem Tame.suffix {bs c r : Bytes} (h : Tame bs) (e : bs = c ++ r) : Tame r := by
  intro pre d post hr hd
  exact h (c ++ pre) d post (by rw [e, hr]; simp) hd

/-- With `tame`, only panics on tame input are excluded; otherwise all. -/
structure Dec.Calm {α : Type} (tame : Bool) (p : Dec α) : Prop where
  run : ∀ fin bs w, (tame = true → Tame bs) → p.runE fin bs ≠ .panic w

variable {tame : Bool}

theorem Dec.Safe.calm {α : Type} {p : Dec α} (h : p.Safe false) : p.Calm tame := by
  refine ⟨fun fin bs w _ e => ?_⟩
  obtain ⟨a, r, h'⟩ := (h.run fin bs).2 rfl
  rw [h'] at e
  cases e

theorem Dec.Calm.bind' {α β : Type} {p : Dec α} {g : α → Dec β} (hp : p.Calm tame) (hg : ∀ a fin bs r, (tame = true → Tame bs) → p.runE fin bs = .ok a r → (g a).Calm tame) : (p >>= g).Calm tame := by
  refine ⟨fun fin bs w ht h => ?_⟩
  rw [Dec.runE_bind] at h
  cases hr : p.runE fin bs with
  | panic w' => exact hp.run fin bs w' ht hr
  | diverge => rw [hr] at h; cases h
  | ok a r =>
    rw [hr] at h
    obtain ⟨c, hc⟩ := Dec.runE_suffix _ _ _ _ _ hr
    exact (hg a fin bs r ht hr).run fin r w (fun e => (ht e).suffix hc) h

theorem Dec.Calm.bind {α β : Type} {p : Dec α} {g : α → Dec β} (hp : p.Calm tame) (hg : ∀ a, (g a).Calm tame) : (p >>= g).Calm tame := hp.bind' fun a _ _ _ _ _ => hg a

theorem Dec.Calm.pure {α : Type} (a : α) : (Pure.pure a : Dec α).Calm tame := Dec.Safe.calm (Dec.Safe.pure a)

theorem tame_varuint {fin : Err} {bs r : Bytes} {l : UInt64} (ht : Tame bs) (h : readVaruint.runE fin bs = .ok (l, none) r) : l.toNat < 2 ^ 35 := by
  rcases C05_readVaruint_total fin bs with ⟨p, rest, e, ⟨init, last, hp, hi, _⟩, _, hv, h'⟩ | ⟨_, _, _, _, _, _, h'⟩ | h'
  · rw [h'] at h
    cases h
    have hl : p.length ≤ 5 := by
      by_cases hc : p.length ≤ 5
      · exact hc
      · have h5 : 5 ≤ init.length := by rw [hp] at hc; simp at hc; omega
        obtain ⟨x, hx, hx'⟩ := ht [] (init.take 5) (init.drop 5 ++ [last] ++ r) (by rw [e, hp, List.nil_append, ← List.append_assoc, ← List.append_assoc, List.take_append_drop]) (by simp [h5])
        have := hi x (List.mem_of_mem_take hx)
        omega
    have h1 := lebValue_lt p
    have h2 : 128 ^ p.length ≤ 128 ^ 5 := Nat.pow_le_pow_right (by decide) hl
    rw [show (lebValue p).toUInt64.toNat = lebValue p from by simp [Nat.toUInt64, UInt64.toNat_ofNat']; omega]
    have h3 : (128 : Nat) ^ 5 = 2 ^ 35 := by decide
    omega
  · rw [h'] at h; cases h
  · obtain ⟨_, _, e, h', _⟩ := h'
    rw [h'] at h; cases h

theorem Dec.Calm.varuint {β : Type} {g : UInt64 × Option Err → Dec β} (h1 : ∀ l e, (g (l, some e)).Calm true) (h2 : ∀ l, l.toNat < 2 ^ 35 → (g (l, none)).Calm true) :
    (readVaruint >>= g).Calm true := by
  refine (readVaruint_safe false).calm.bind' fun a fin bs r ht h => ?_
  obtain ⟨l, e⟩ := a
  cases e with
  | some e => exact h1 l e
  | none => exact h2 l (tame_varuint (ht rfl) h)

theorem goInt_small {l : UInt64} (h : l.toNat < 2 ^ 35) : goInt l = l.toNat := by
  have := goInt_toUInt64 l.toNat (by omega)
  rwa [show l.toNat.toUInt64 = l from by simp] at this

theorem readBytes_calm {l : UInt64} (h : l.toNat < 2 ^ 35) : (readBytes (goInt l)).Calm tame :=
  (readBytes_safe false _ (.inr (by rw [goInt_small h]; simp; unfold maxAlloc; omega))).calm

macro "calm" "[" ts:term,* "]" : tactic => do
  let alts ← ts.getElems.mapM fun t => `(tactic| exact $t)
  `(tactic| repeat' (first | exact Dec.Calm.pure _ | (first $[| $alts:tactic]* ) | exact readBytes_calm (by assumption) | (refine Dec.Calm.varuint ?_ ?_) | (refine Dec.Calm.bind ?_ ?_) | intro _ | split))

theorem bind_eq {α β : Type} (p : Dec α) (g : α → Dec β) : Dec.bind p g = (p >>= g) := rfl

theorem readString_calm : readString.Calm true := by unfold readString; calm []
theorem bytesT_calm (o : Bytes) : (BytesT.unmarshal o).Calm true := by unfold BytesT.unmarshal; calm []
theorem unmarshalBytes_calm (o : Option Bytes) : (unmarshalBytes o).Calm true := by unfold unmarshalBytes; calm [bytesT_calm _]

theorem putLen_calm {β : Type} {l : UInt64} (h : l.toNat < 2 ^ 35) (k : Bytes → Dec β) (hk : ∀ b, (k b).Calm tame) : (putLen l k).Calm tame := by
  unfold putLen
  split
  · rename_i hn
    have : (putUvarint 5 l).isSome := (putUvarint_isSome 5 l).mpr ⟨by simpa using h, by decide⟩
    rw [hn] at this
    cases this
  · exact hk _

theorem pubKey_calm (o : PubKey) : o.unmarshal.Calm true := by
  unfold PubKey.unmarshal
  calm [(readByte_safe false).calm, (readBytes_safe false _ (.inr (by decide))).calm, putLen_calm (by assumption) _ fun _ => .pure _]
theorem sig_calm (o : Sig) : o.unmarshal.Calm true := by
  unfold Sig.unmarshal
  calm [(readByte_safe false).calm, (readBytes_safe false _ (.inr (by decide))).calm, putLen_calm (by assumption) _ fun _ => putLen_calm (by assumption) _ fun _ => .pure _]

theorem decEach_calm {α : Type} {dec : α → Dec (α × Option Err)} (h : ∀ x, (dec x).Calm tame) (xs : List α) : (decEach dec xs).Calm tame := by
  induction xs with
  | nil => exact .pure _
  | cons x xs ih => unfold decEach; calm [h _, ih]

theorem makeSlice_calm {α β : Type} (zero : α) (size : Nat) {n : UInt64} (hn : n.toNat < 2 ^ 35) (hs : size ≤ 2 ^ 13) (k : List α → Dec β) (h : ∀ xs, (k xs).Calm tame) :
    (makeSlice zero size n k).Calm tame := by
  unfold makeSlice
  rw [goInt_small hn, if_neg (by omega), if_neg]
  · exact h _
  · have : n.toNat * size ≤ 2 ^ 35 * 2 ^ 13 := Nat.mul_le_mul (by omega) hs
    unfold maxAlloc
    omega

theorem decSlice_calm {α : Type} (zero : α) (size : Nat) (hs : size ≤ 2 ^ 13) {dec : α → Dec (α × Option Err)} (h : ∀ x, (dec x).Calm true) (old : List α) :
    (decSlice zero size dec old).Calm true := by
  unfold decSlice; calm [makeSlice_calm _ _ (by assumption) hs _ fun _ => decEach_calm h _]

theorem action_calm (o : Action) : o.unmarshal.Calm true := by
  unfold Action.unmarshal; calm [(name_safe false _).calm, (authLoop_safe _ _).calm, bytesT_calm _]
theorem txExtension_calm (o : TxExtension) : o.unmarshal.Calm true := by unfold TxExtension.unmarshal; calm [(readUint16_safe false).calm, bytesT_calm _]
theorem transaction_calm (o : Transaction) : o.unmarshal.Calm true := by
  unfold Transaction.unmarshal; calm [(txHeader_safe false _).calm, decSlice_calm _ _ (by decide) action_calm _, decSlice_calm _ _ (by decide) txExtension_calm _]

theorem basic_calm (b : Basic) (h : tame = true ∨ b ≠ .string) : b.read.Calm tame := by
  by_cases hb : b = .string
  · subst hb
    rcases h with rfl | h
    · exact readString_calm
    · exact absurd rfl h
  · exact (basic_safe b (.inr (by cases b <;> first | rfl | exact absurd rfl hb))).calm

theorem kind_calm (b : Basic) (old : b.Val) : (b.readKind old).Calm tame := by
  unfold Basic.readKind
  cases b <;> first
    | exact .pure _
    | (dsimp only; calm [(readUint64_safe false).calm, (readUint32_safe false).calm, (readInt64_safe false).calm, (readInt32_safe false).calm])

theorem chain_calm (c : ChainTy) (h : tame = true ∨ c ∉ [ChainTy.action, .blob, .bytes, .publicKey, .signature, .transaction, .transactionExtension]) (v : c.Val) : (c.unmarshal v).Calm tame := by
  cases c with
  | action => rcases h with rfl | h <;> first | exact action_calm v | exact absurd (by simp) h
  | blob => rcases h with rfl | h <;> first | exact unmarshalBytes_calm v | exact absurd (by simp) h
  | bytes => rcases h with rfl | h <;> first | exact unmarshalBytes_calm v | exact absurd (by simp) h
  | publicKey => rcases h with rfl | h <;> first | exact pubKey_calm v | exact absurd (by simp) h
  | signature => rcases h with rfl | h <;> first | exact sig_calm v | exact absurd (by simp) h
  | transaction => rcases h with rfl | h <;> first | exact transaction_calm v | exact absurd (by simp) h
  | transactionExtension => rcases h with rfl | h <;> first | exact txExtension_calm v | exact absurd (by simp) h
  | _ => exact (chain_safe _ (.inr rfl) v).calm

theorem decodeBytes_calm (o : Option Bytes) : (decodeBytes o).Calm true := by unfold decodeBytes; calm []

theorem decodeSlice_calm {α : Type} (zero : α) (size : Nat) (hs : size ≤ 2 ^ 13) {dec : α → Dec (α × Option Err)} (h : ∀ x, (dec x).Calm true) (old : Option (List α)) :
    (decodeSlice zero size dec old).Calm true := by
  unfold decodeSlice
  refine .varuint (fun _ _ => .pure _) fun l hl => ?_
  dsimp only
  split
  · exact makeSlice_calm _ _ hl hs _ fun _ => .bind (decEach_calm h _) fun _ => .pure _
  · exact .bind (decEach_calm h _) fun _ => .pure _

theorem mapLoop_calm {α β : Type} [DecidableEq α] {dk : Dec (α × Option Err)} {dv : Dec (β × Option Err)} (h1 : dk.Calm tame) (h2 : dv.Calm tame) (n : Nat) (m : List (α × β)) :
    (mapLoop dk dv n m).Calm tame := by
  induction n generalizing m with
  | zero => exact .pure _
  | succ n ih => unfold mapLoop; calm [h1, h2, ih _]
theorem decodeMap_calm {α β : Type} [DecidableEq α] {dk : Dec (α × Option Err)} {dv : Dec (β × Option Err)} (h1 : dk.Calm true) (h2 : dv.Calm true) (old : Option (List (α × β))) :
    (decodeMap dk dv old).Calm true := by
  unfold decodeMap; calm [mapLoop_calm h1 h2 _ _]

theorem via_calm (t : Ty) (ht : t.isChain = false) (mode : Mode) (old : t.Val) (fast slow : t.Val → Dec (t.Val × Option Err)) (hf : ∀ x, (fast x).Calm tame)
    (hs : ∀ x, (slow x).Calm tame) : (viaDecFn chainDecoder t mode old fast slow).Calm tame := by
  cases mode with
  | value => exact hs old
  | variant _ => exact .pure _
  | member => exact .pure _
  | decode => unfold viaDecFn; rw [chainDecoder_else t ht]; exact hf old
  | elem => unfold viaDecFn; rw [chainDecoder_else t ht]; exact hf old

theorem decodeField_calm {α β : Type} (vis : Vis) (hv : vis ≠ .unexported) (tag : Tag) (x x' zero : α) (dec : Mode → Dec (α × Option Err)) (h1 : (dec .elem).Calm tame)
    (h2 : tag = .variant → ∀ i, (dec (.variant i)).Calm tame) (xs : β) (err : Option Err) (rest : Option Err → Dec (β × Option Err)) (hr : ∀ err, (rest err).Calm tame) :
    (decodeField vis tag x x' zero dec xs err rest).Calm tame := by
  unfold decodeField
  cases vis with
  | unexported => exact absurd rfl hv
  | blank => dsimp only; calm [hr _]
  | exported => cases tag <;> dsimp only <;> calm [hr _, h1, h2 rfl _, (readBool_safe false).calm, (readByte_safe false).calm]

theorem nilable_isNil {t : Ty} (h : t.Nilable) (x : t.Val) : ∃ b, t.isNil x = some b := by
  cases t with
  | chain c => cases c <;> first | exact ⟨_, rfl⟩ | cases h
  | ptr _ => exact ⟨_, rfl⟩
  | slice _ => exact ⟨_, rfl⟩
  | map _ _ => exact ⟨_, rfl⟩
  | bytes => exact ⟨_, rfl⟩
  | _ => cases h

theorem clear_calm : ∀ (fs : Fields) (_ : fs.Members) (idx : Option Nat) (v : fs.Val), ∃ w, fs.clear idx v = some w
  | .nil, _, _, _ => ⟨_, rfl⟩
  | .cons vis tag t fs, h, idx, v => by
    obtain ⟨h1, h2, h3⟩ := h
    unfold Fields.clear
    obtain ⟨x, xs⟩ : t.Val × fs.Val := v
    obtain ⟨b, hb⟩ := nilable_isNil h2 x
    have hx : ∃ x' : t.Val, (if idx = some 0 then some x else match t.isNil x with
        | none => none
        | some true => some x
        | some false => if vis = .exported then some t.zero else none) = some x' := by
      rw [hb, if_pos h1]
      split
      · exact ⟨_, rfl⟩
      · cases b <;> exact ⟨_, rfl⟩
    obtain ⟨x', hx⟩ := hx
    have hn := fun i => clear_calm fs h3 i xs
    dsimp only
    split
    · exact ⟨_, rfl⟩
    · rename_i h
      exact (h x' (hn _).choose (by rw [← hx]; rfl) (hn _).choose_spec).elim

theorem readChain_calm (c : ChainTy) (h : ∀ v, (c.unmarshal v).Calm tame) (m : Mode) (old : c.Val) : (decodeWith chainDecoder (.chain c) m old).Calm tame := by
  cases m with
  | variant _ => exact h old
  | member => exact .pure _
  | _ => rw [decode_chain c _ (by unfold Mode.Plain; simp)]; exact h old

/-- What is asked of a type -/
def Ty.Ok (tame : Bool) (t : Ty) : Prop := t.Steady ∧ (tame = true ∨ t.Sized)
def Fields.Ok (tame : Bool) (fs : Fields) : Prop := fs.Steady ∧ (tame = true ∨ fs.Sized)

mutual
theorem ty_calm : ∀ {tame : Bool} (t : Ty) (_ : t.Ok tame) (m : Mode) (_ : ∀ i, m = .variant i → t.VariantOk) (old : t.Val), (decodeWith chainDecoder t m old).Calm tame
  | tame, .basic b, h, m, _, old => by
    unfold decodeWith
    exact via_calm _ rfl m old _ _ (fun _ => basic_calm b (h.2.imp_right fun h => h)) (kind_calm b)
  | tame, .named b, _, m, _, old => by
    unfold decodeWith
    exact via_calm _ rfl m old _ _ (kind_calm b) (kind_calm b)
  | tame, .ref _ _ _, h, m, _, old => h.1.elim
  | tame, .unsupported, _, m, _, old => by
    unfold decodeWith
    exact via_calm _ rfl m old _ _ (fun _ => .pure _) (fun _ => .pure _)
  | tame, .bytes, h, m, _, old => by
    obtain rfl : tame = true := h.2.elim id False.elim
    unfold decodeWith
    refine via_calm _ rfl m old _ _ decodeBytes_calm (fun x => ?_)
    exact decodeSlice_calm (α := UInt8) 0 1 (by decide) (fun x => via_calm (.basic .u8) rfl .elem x _ _ (fun _ => (readUint8_safe false).calm) (fun _ => .pure _)) x
  | tame, .chain c, h, m, _, old => readChain_calm c (chain_calm c (h.2.imp_right fun h => h)) m old
  | tame, .ptr t, h, m, hv, old => by
    have ht : t.Ok tame := h
    have ih := ty_calm t ht
    have slow : ∀ o : Option t.Val, (do
        let (x, err) ← decodeWith chainDecoder t .value (o.getD t.zero)
        pure ((some x : Option t.Val), err) : Dec (Option t.Val × Option Err)).Calm tame := fun o => .bind (ih _ (by intro _ h; cases h) _) fun _ => .pure _
    unfold decodeWith
    cases m with
    | elem => exact .bind (ih _ (by intro _ h; cases h) _) fun _ => .pure _
    | variant i => exact .bind (ih _ (fun _ h => hv i rfl) _) fun _ => .pure _
    | member =>
      refine .bind (ih _ (by intro _ h; cases h) _) fun r => ?_
      obtain ⟨x, e⟩ := r
      cases e <;> exact .pure _
    | decode => exact via_calm (.ptr t) rfl .decode old _ _ slow slow
    | value => exact via_calm (.ptr t) rfl .value old _ _ slow slow
  | tame, .slice t, h, m, _, old => by
    obtain rfl : tame = true := h.2.elim id False.elim
    have ih := ty_calm t ⟨h.1.1, .inl rfl⟩ .elem (by intro _ h; cases h)
    unfold decodeWith
    exact via_calm (.slice t) rfl m old _ _ (fun x => decodeSlice_calm _ _ h.1.2 ih x) (fun x => decodeSlice_calm _ _ h.1.2 ih x)
  | tame, .array n t, h, m, _, old => by
    have ht : t.Ok tame := h
    have ih := ty_calm t ht .elem (by intro _ h; cases h)
    unfold decodeWith
    exact via_calm (.array n t) rfl m old _ _ (fun x => decEach_calm ih x) (fun x => decEach_calm ih x)
  | tame, .map k e, h, m, _, old => by
    obtain rfl : tame = true := h.2.elim id False.elim
    have ih1 := ty_calm k ⟨h.1.1, .inl rfl⟩ .decode (by intro _ h; cases h) k.zero
    have ih2 := ty_calm e ⟨h.1.2, .inl rfl⟩ .decode (by intro _ h; cases h) e.zero
    unfold decodeWith
    exact via_calm (.map k e) rfl m old _ _ (fun x => decodeMap_calm ih1 ih2 x) (fun x => decodeMap_calm ih1 ih2 x)
  | tame, .struct fs, h, m, hv, old => by
    have hf : fs.Ok tame := h
    have ih := fields_calm fs hf
    have ih2 := member_calm fs hf
    unfold decodeWith
    cases m with
    | variant i =>
      have hm : fs.Members := hv i rfl
      dsimp only
      split
      · exact .pure _
      · obtain ⟨w, hw⟩ := clear_calm fs hm (some i) old
        split
        · rename_i hn
          exact absurd (hw.symm.trans hn) (by simp)
        · exact ih2 hm i _
    | elem => exact via_calm (.struct fs) rfl .elem old _ _ (ih none) (ih none)
    | member => exact via_calm (.struct fs) rfl .member old _ _ (ih none) (ih none)
    | decode => exact via_calm (.struct fs) rfl .decode old _ _ (ih none) (ih none)
    | value => exact via_calm (.struct fs) rfl .value old _ _ (ih none) (ih none)
theorem fields_calm : ∀ {tame : Bool} (fs : Fields) (_ : fs.Ok tame) (err : Option Err) (old : fs.Val), (decodeFields chainDecoder fs err old).Calm tame
  | tame, .nil, _, _, _ => .pure _
  | tame, .cons vis tag t fs, h, err, old => by
    obtain ⟨⟨h1, h2, h3, h4⟩, h5⟩ := h
    have ih1 := ty_calm t ⟨h3, h5.imp_right fun h => h.1⟩
    have ih2 := fields_calm fs ⟨h4, h5.imp_right fun h => h.2⟩
    unfold decodeFields
    obtain ⟨x, xs⟩ : t.Val × fs.Val := old
    exact decodeField_calm vis h1 tag x (t.alloc x) t.zero _ (ih1 _ (by intro _ h; cases h) _) (fun hv i => ih1 _ (fun _ _ => h2 hv) _) xs err _ (fun err => ih2 err xs)
theorem member_calm : ∀ {tame : Bool} (fs : Fields) (_ : fs.Ok tame) (_ : fs.Members) (i : Nat) (old : fs.Val), (decodeMember chainDecoder fs i old).Calm tame
  | tame, .nil, _, _, _, _ => by unfold decodeMember; exact .pure _
  | tame, .cons vis tag t fs, h, hm, 0, old => by
    obtain ⟨⟨h1, h2, h3, h4⟩, h5⟩ := h
    obtain ⟨rfl, _, _⟩ := hm
    unfold decodeMember
    obtain ⟨x, xs⟩ : t.Val × fs.Val := old
    have ih1 := ty_calm t ⟨h3, h5.imp_right fun h => h.1⟩ .member (by intro _ h; cases h) x
    refine .bind ih1 fun r => ?_
    obtain ⟨y, e⟩ := r
    cases e <;> exact .pure _
  | tame, .cons vis tag t fs, h, hm, n + 1, old => by
    obtain ⟨⟨h1, h2, h3, h4⟩, h5⟩ := h
    unfold decodeMember
    obtain ⟨x, xs⟩ : t.Val × fs.Val := old
    have ih := member_calm fs ⟨h4, h5.imp_right fun h => h.2⟩ hm.2.2 n xs
    exact .bind ih fun _ => .pure _
end

end Verif
