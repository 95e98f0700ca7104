import Verif.Lemmas.RecursiveSim
/-! # Encoding of values that end above the references -/
namespace Verif

/-- No path through the function diverges. -/
def Enc.Finite {α : Type} : Enc α → Prop
  | .ret _ => True
  | .panic _ => True
  | .diverge => False
  | .write _ k => ∀ e, (k e).Finite

theorem Enc.Finite.bind {α β : Type} {p : Enc α} {g : α → Enc β} (hp : p.Finite) (hg : ∀ a, (g a).Finite) : (p >>= g).Finite := by
  change (Enc.bind p g).Finite
  induction p with
  | ret a => exact hg a
  | panic w => trivial
  | diverge => exact hp
  | write bs k ih => exact fun e => ih e (hp e)

theorem Enc.Finite.pure {α : Type} (a : α) : (Pure.pure a : Enc α).Finite := trivial

theorem Enc.Finite.runW {α : Type} {p : Enc α} (h : p.Finite) (w : Nat → WEv) : p.runW w ≠ .diverge := by
  induction p generalizing w with
  | ret a => exact fun h => nomatch h
  | panic w => exact fun h => nomatch h
  | diverge => exact h.elim
  | write bs k ih =>
    unfold Enc.runW
    split
    · have := ih none (h none) (fun i => w (i + 1))
      cases hh : (k none).runW (fun i => w (i + 1)) with
      | diverge => exact absurd hh this
      | _ => exact fun h => nomatch h
    · rename_i n e _
      have := ih (some e) (h _) (fun i => w (i + 1))
      cases hh : (k (some e)).runW (fun i => w (i + 1)) with
      | diverge => exact absurd hh this
      | _ => exact fun h => nomatch h

/-- Goes through binds, matches and ifs; the arguments are the facts about the parts. -/
macro "finite" "[" ts:term,* "]" : tactic => do
  let alts ← ts.getElems.mapM fun t => `(tactic| exact $t)
  `(tactic| repeat' (first | exact trivial | (first $[| $alts:tactic]* ) | (refine Enc.Finite.bind ?_ ?_) | intro _ | split))

theorem writeBytes_finite (b : Bytes) : (writeBytes b).Finite := fun _ => trivial
theorem writeByte_finite (b : UInt8) : (writeByte b).Finite := fun _ => trivial
theorem writeBool_finite (b : Bool) : (writeBool b).Finite := by cases b <;> exact writeByte_finite _
theorem writeVaruint_finite (v : UInt64) : (writeVaruint v).Finite := by unfold writeVaruint; finite [writeBytes_finite _]
theorem writeVarint_finite (v : Int64) : (writeVarint v).Finite := by unfold writeVarint; finite [writeBytes_finite _]
theorem writeString_finite (v : Bytes) : (writeString v).Finite := by unfold writeString; finite [writeBytes_finite _, writeVaruint_finite _]

theorem basicWrite_finite (b : Basic) (v : b.Val) : (b.write v).Finite := by
  cases b with
  | bool => exact writeBool_finite v
  | string => exact writeString_finite v
  | int => exact writeVarint_finite v
  | uint => exact writeVaruint_finite v
  | _ => exact fun _ => trivial

theorem writeKind_finite (b : Basic) (v : b.Val) : (b.writeKind v).Finite := by
  cases b with
  | u64 => exact writeBytes_finite _
  | u32 => exact writeBytes_finite _
  | i64 => exact writeBytes_finite _
  | i32 => exact writeBytes_finite _
  | _ => trivial

theorem encEach_finite {α : Type} {enc : α → Enc (Option Err)} {k : Enc (Option Err)} (xs : List α) (h : ∀ x ∈ xs, (enc x).Finite) (hk : k.Finite) : (encEach enc k xs).Finite := by
  induction xs with
  | nil => exact hk
  | cons x xs ih =>
    refine (h x (List.mem_cons_self ..)).bind ?_
    rintro (_ | e)
    · exact ih fun y hy => h y (List.mem_cons_of_mem _ hy)
    · exact .pure _

theorem bytesT_finite (b : Bytes) : (BytesT.marshal b).Finite := by unfold BytesT.marshal; finite [writeBytes_finite _, writeVaruint_finite _]
theorem perm_finite (p : PermissionLevel) : p.marshal.Finite := by unfold PermissionLevel.marshal; finite [writeBytes_finite _]
theorem action_finite (a : Action) : a.marshal.Finite := by
  unfold Action.marshal
  finite [writeBytes_finite _, writeVaruint_finite _, encEach_finite _ (fun x _ => perm_finite x) (bytesT_finite _)]
theorem txExt_finite (x : TxExtension) : x.marshal.Finite := by unfold TxExtension.marshal; finite [writeBytes_finite _, bytesT_finite _]
theorem txHeader_finite (x : TxHeader) : x.marshal.Finite := by unfold TxHeader.marshal; finite [writeBytes_finite _, writeByte_finite _, writeVaruint_finite _]
theorem encSlice_finite {α : Type} {enc : α → Enc (Option Err)} {k : Enc (Option Err)} (xs : List α) (h : ∀ x, (enc x).Finite) (hk : k.Finite) : (encSlice enc xs k).Finite := by
  unfold encSlice
  finite [writeVaruint_finite _, encEach_finite _ (fun x _ => h x) hk]
theorem transaction_finite (x : Transaction) : x.marshal.Finite := by
  unfold Transaction.marshal
  finite [txHeader_finite _, encSlice_finite _ action_finite (encSlice_finite _ action_finite (encSlice_finite _ txExt_finite trivial))]

theorem chainMarshal_finite (c : ChainTy) (v : c.Val) : (c.marshal v).Finite := by
  cases c with
  | action => exact action_finite v
  | asset => show (Asset.marshal v).Finite; unfold Asset.marshal; finite [writeBytes_finite _]
  | blob => exact bytesT_finite _
  | bytes => exact bytesT_finite _
  | permissionLevel => exact perm_finite v
  | publicKey => show (PubKey.marshal v).Finite; unfold PubKey.marshal; finite [writeBytes_finite _, writeByte_finite _]
  | signature => show (Sig.marshal v).Finite; unfold Sig.marshal; finite [writeBytes_finite _, writeByte_finite _]
  | transaction => exact transaction_finite v
  | transactionExtension => exact txExt_finite v
  | transactionHeader => exact txHeader_finite v
  | extendedAsset => show (ExtendedAsset.marshal v).Finite; unfold ExtendedAsset.marshal Asset.marshal; finite [writeBytes_finite _]
  | _ => exact fun _ => trivial

theorem chainEncoder_finite (t : Ty) (v : t.Val) : (chainEncoder t v).Finite := by
  cases t with
  | chain c => cases c <;> first | exact trivial | exact (chainMarshal_finite _ v).bind fun _ => .pure _
  | _ => trivial

theorem viaEnc_finite (t : Ty) (v : t.Val) {k : Enc (Option Err)} (hk : k.Finite) : (viaEncFn chainEncoder t v k).Finite := by
  refine (chainEncoder_finite t v).bind fun x => ?_
  obtain ⟨d, e⟩ := x
  dsimp only
  split
  · exact .pure _
  · exact hk

theorem encodeAsset_finite (a : Asset) : (ChainTy.encodeValue.encodeAsset chainEncoder a).Finite := by
  unfold ChainTy.encodeValue.encodeAsset
  finite [viaEnc_finite _ _ (writeBytes_finite _)]

theorem chainEncode_finite (c : ChainTy) (v : c.Val) : (encodeWith chainEncoder (.chain c) v).Finite := by
  refine viaEnc_finite (.chain c) v ?_
  cases c with
  | checksum160 => exact encEach_finite _ (fun x _ => viaEnc_finite _ _ (writeByte_finite x)) trivial
  | checksum256 => exact encEach_finite _ (fun x _ => viaEnc_finite _ _ (writeByte_finite x)) trivial
  | checksum512 => exact encEach_finite _ (fun x _ => viaEnc_finite _ _ (writeByte_finite x)) trivial
  | asset => exact encodeAsset_finite v
  | extendedAsset =>
    refine (viaEnc_finite (.chain .asset) (ExtendedAsset.quantity v) (encodeAsset_finite _)).bind ?_
    rintro (_ | e)
    · exact viaEnc_finite (.chain .name) _ (writeBytes_finite _)
    · exact .pure _
  | _ => exact chainMarshal_finite _ v

mutual
theorem encode_finite : (t : Ty) → (v : t.Val) → t.Ends v → (encodeWith chainEncoder t v).Finite
  | .basic b, v, _ => basicWrite_finite b v
  | .named b, v, _ => writeKind_finite b v
  | .unsupported, _, _ => trivial
  | .bytes, v, _ => (writeVaruint_finite (Option.getD (α := Bytes) v []).length.toUInt64).bind fun e => by cases e <;> first | exact .pure _ | exact writeBytes_finite _
  | .chain c, v, _ => chainEncode_finite c v
  | .ptr t, v, h => by
    have ih := encode_finite t
    cases t with
    | chain c =>
      cases v with
      | none => trivial
      | some x => exact chainMarshal_finite c x
    | _ =>
      cases v with
      | none => trivial
      | some x => exact ih x (h x rfl)
  | .slice t, v, h => (writeVaruint_finite (Option.getD (α := List t.Val) v []).length.toUInt64).bind fun e => by
    cases e with
    | some e => exact .pure _
    | none => exact encEach_finite _ (fun x hx => encode_finite t x (h x hx)) trivial
  | .array n t, v, h => encEach_finite _ (fun x hx => encode_finite t x (h x hx)) trivial
  | .map k e, v, h => (writeVaruint_finite (Option.getD (α := List (k.Val × e.Val)) v []).length.toUInt64).bind fun e' => by
    cases e' with
    | some e => exact .pure _
    | none =>
      refine encEach_finite (α := k.Val × e.Val) _ (fun x hx => ?_) trivial
      refine (encode_finite k x.1 (h x hx).1).bind ?_
      rintro (_ | e')
      · exact encode_finite e x.2 (h x hx).2
      · exact .pure _
  | .struct fs, v, h => encodeFields_finite fs v h
theorem encodeFields_finite : (fs : Fields) → (v : fs.Val) → fs.Ends v → (encodeFields chainEncoder fs v).Finite
  | .nil, _, _ => trivial
  | .cons vis tag t fs, v, h => by
    obtain ⟨x, xs⟩ : t.Val × fs.Val := v
    have h1 := encode_finite t x h.1
    have h2 := encodeFields_finite fs xs h.2
    show (encodeField vis tag (t.isZero x) (encodeWith chainEncoder t x) (encodeFields chainEncoder fs xs)).Finite
    generalize encodeWith chainEncoder t x = one at h1 ⊢
    generalize encodeFields chainEncoder fs xs = rest at h2 ⊢
    unfold encodeField
    finite [h1, h2, writeBool_finite _]
end

end Verif
