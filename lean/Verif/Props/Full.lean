import Verif.Lemmas.Full
/-! # C101: a writer that runs full -/
namespace Verif

/-- Whatever is encoded: a writer with room for all bytes gets them and the result is the same; one without room gets as many of the first bytes as it has room for, whatever is returned. -/
theorem C101_writer {α : Type} (p : Enc α) (e : Err) (n : Nat) (a : α) (b : Bytes) (h : p.run = .ok a b) :
    (b.length ≤ n → p.runFull e n = .ok a b) ∧ (n < b.length → ∀ a' out, p.runFull e n = .ok a' out → out = b.take n) := runFull_any e p n a b h

/-- MarshalABI of every type of package chain: if not all bytes fit, the error of the writer is returned, and the writer has what fits. -/
theorem C101_chain (c : ChainTy) (v : c.Val) (e : Err) (n : Nat) (b : Bytes) (h : (c.marshal v).run = .ok none b) :
    (c.marshal v).runFull e n = if b.length ≤ n then .ok none b else .ok (some e) (b.take n) := by
  have := chain_fills grows_none c v e n b h
  split at this
  · rename_i hl; rw [if_pos hl]; exact this
  · rename_i hl; rw [if_neg hl]; exact this.resolve_right fun h => h.2

/-- Encode of every type without optional fields. -/
theorem C101_reflect (t : Ty) (ht : t.Flagless) (v : t.Val) (e : Err) (n : Nat) (b : Bytes) (h : (encode t v).run = .ok none b) :
    (encode t v).runFull e n = if b.length ≤ n then .ok none b else .ok (some e) (b.take n) := by
  have := tyWrite_fills grows_none t (.inr ht) v e n b h
  split at this
  · rename_i hl; rw [if_pos hl]; exact this
  · rename_i hl; rw [if_neg hl]; exact this.resolve_right fun h => h.2

/-- Encode of every type: nil is returned only if nothing but presence flags is missing. It is (C101_reflect_violated). -/
theorem C101_optional (t : Ty) (v : t.Val) (e : Err) (n : Nat) (b : Bytes) (h : (encode t v).run = .ok none b) :
    if b.length ≤ n then (encode t v).runFull e n = .ok none b
    else (encode t v).runFull e n = .ok (some e) (b.take n) ∨ (encode t v).runFull e n = .ok none (b.take n) ∧ ∀ x ∈ b.drop n, x = 0 ∨ x = 1 :=
  tyWrite_fills grows_flags t (.inl ⟨by simp [AllFlags], by simp [AllFlags]⟩) v e n b h

/-- Abi.Encode if no type has a '?'. -/
theorem C101_abi (a : Abi) (name : Bytes) (hx : a.NoOpt name) (fuel : Nat) (v : AV) (e : Err) (n : Nat) (b : Bytes) (h : (a.encode fuel name v).run = .ok none b) :
    (a.encode fuel name v).runFull e n = if b.length ≤ n then .ok none b else .ok (some e) (b.take n) := by
  have := (C10_abi_partial a name hx fuel v).fills (fun _ => False) e n b h
  split at this
  · rename_i hl; rw [if_pos hl]; exact this
  · rename_i hl; rw [if_neg hl]; exact this.resolve_right fun h => h.2

/-- Abi.Encode of every type: nil is returned only if the first byte that is missing is a presence flag. It is (C101_abi_violated). -/
theorem C101_abi_optional (a : Abi) (name : Bytes) (fuel : Nat) (v : AV) (e : Err) (n : Nat) (b : Bytes) (h : (a.encode fuel name v).run = .ok none b) :
    if b.length ≤ n then (a.encode fuel name v).runFull e n = .ok none b
    else (a.encode fuel name v).runFull e n = .ok (some e) (b.take n) ∨
      (a.encode fuel name v).runFull e n = .ok none (b.take n) ∧ ∃ x r, b.drop n = x :: r ∧ (x = 0 ∨ x = 1) := by
  have key : (a.encode fuel name v).Fills FlagFirst := by
    unfold Abi.encode
    cases resolve a name with
    | panic => exact fills_panic _
    | diverge => exact fills_diverge
    | val ts => exact encodeTypeF_fills ts fuel name v
  exact key e n b h

/-- A struct that ends in an absent optional field, for every type in front: the flag does not fit, and Encode returns nil. -/
theorem C101_reflect_violated (t u : Ty) (v : t.Val) (w : u.Val) (hw : u.isZero w = true) (e : Err) (b : Bytes) (ht : t.Flagless) (h : (encode t v).run = .ok none b) :
    (encode (.struct (.cons .exported .none t (.cons .exported .optional u .nil))) (v, w, ())).run = .ok none (b ++ [0]) ∧
    (encode (.struct (.cons .exported .none t (.cons .exported .optional u .nil))) (v, w, ())).runFull e b.length = .ok none b := by
  have h2 : ∀ p : Enc (Option Err), p.run = .ok none b → (p >>= fun r => match r with
      | some e => Pure.pure (some e)
      | none => writeByte 0 >>= fun _ => Pure.pure none).run = .ok none (b ++ [0]) := by
    intro p
    change _ → (Enc.bind p _).run = _
    generalize b = b
    induction p generalizing b with
    | ret a => intro h; cases h; rfl
    | panic w => intro h; cases h
    | diverge => intro h; cases h
    | write bs k ih =>
      intro h
      have h' : ((k none).run).prepend bs = .ok none b := h
      cases hk : (k none).run with
      | ok c o =>
        rw [hk] at h'; cases h'
        have := ih none o hk
        show ((Enc.bind (k none) _).run).prepend bs = _
        rw [this]
        simp [EOut.prepend, EOut.bind]
      | panic w => rw [hk] at h'; cases h'
      | diverge => rw [hk] at h'; cases h'
  have hs : encode (.struct (.cons .exported .none t (.cons .exported .optional u .nil))) (v, w, ()) = (encode t v >>= fun r => match r with
      | some e => Pure.pure (some e)
      | none => writeByte 0 >>= fun _ => Pure.pure none) := by
    show encodeField .exported .none (t.isZero v) (encode t v) (encodeField .exported .optional (u.isZero w) (encode u w) (Pure.pure none)) = _
    rw [hw]
    rfl
  rw [hs]
  refine ⟨h2 _ h, ?_⟩
  rw [runFull_bind, C101_reflect t ht v e b.length b h, if_pos (Nat.le_refl _)]
  simp only [EOut.bind, Nat.sub_self]
  show EOut.ok none (b ++ ([] ++ [])) = _
  rw [List.append_nil, List.append_nil]

/-- Abi.Encode of a present optional value: flag and value do not fit, and nil is returned. -/
theorem C101_abi_violated : ∃ (a : Abi) (name : Bytes) (v : AV) (b : Bytes) (fuel : Nat), (a.encode fuel name v).run = .ok none b ∧ b = [1, 5, 0] ∧
    ∀ e, (a.encode fuel name v).runFull e 0 = .ok none [] := by
  refine ⟨⟨[], [], [], [], [], [], [], [], []⟩, asc "uint16?", .basic .u16 (5 : UInt16), [1, 5, 0], 1, by rfl, rfl, fun e => by rfl⟩

/-! The hypotheses are met, and the errors are those of the writer. -/

/-- A transaction with one action, on writers with room for 21 and for all but one byte: the error of the write that fails is dropped by Action.MarshalABI but comes again. -/
example : let tx : Transaction := ⟨⟨1, 2, 3, 4, 5, 6⟩, [], [⟨7, 8, [⟨9, 10⟩], [11]⟩], []⟩
    ∃ b, (tx.marshal).run = .ok none b ∧ 21 < b.length ∧ tx.marshal.runFull (.io 28) 21 = .ok (some (.io 28)) (b.take 21) := by
  intro tx
  exact ⟨_, rfl, by decide +kernel, C101_chain .transaction tx (.io 28) 21 _ rfl⟩

example : (encode (.slice (.basic .u16)) (some [(258 : UInt16), (772 : UInt16)])).runFull (.io 28) 2 = .ok (some (.io 28)) [2, 2] :=
  C101_reflect (.slice (.basic .u16)) trivial (some [(258 : UInt16), (772 : UInt16)]) (.io 28) 2 [2, 2, 1, 4, 3] rfl

example : (encode (.struct (.cons .exported .none (.basic .u8) (.cons .exported .optional (.basic .u16) .nil))) ((7 : UInt8), (0 : UInt16), ())).runFull (.io 28) 1 = .ok none [7] :=
  (C101_reflect_violated (.basic .u8) (.basic .u16) (7 : UInt8) (0 : UInt16) (by decide) (.io 28) [7] trivial rfl).2

/-- A present field of one byte is not lost without an error: both the flag and the field fail, and the error of the field is returned. -/
example : (encode (.struct (.cons .exported .optional (.basic .u8) .nil)) ((1 : UInt8), ())).runFull (.io 28) 0 = .ok (some (.io 28)) [] := rfl

example : ((⟨[], [], [], [], [], [], [], [], []⟩ : Abi).encode 1 (asc "uint16[]") (.slice [.basic .u16 (5 : UInt16)])).runFull (.io 28) 2 = .ok (some (.io 28)) [1, 5] := by rfl

end Verif
