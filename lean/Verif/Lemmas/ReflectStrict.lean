import Verif.Spec.Stream
import Verif.Props.ChainStream
import Verif.Lemmas.Reflect
/-! # The reflection codec gives up on the first failure -/
namespace Verif

theorem basic_strict (s : Bool) (b : Basic) : b.read.Strict s := by
  cases b with
  | bool => exact readBool_strict s
  | string => exact readString_strict s
  | u8 => exact readUint8_strict s
  | u16 => exact readUint16_strict s
  | u32 => exact readUint32_strict s
  | u64 => exact readUint64_strict s
  | i8 => exact readInt8_strict s
  | i16 => exact readInt16_strict s
  | i32 => exact readInt32_strict s
  | i64 => exact readInt64_strict s
  | f32 => exact readFloat32_strict s
  | f64 => exact readFloat64_strict s
  | int => exact readVarintD_strict s
  | uint => exact readVaruint_strict s

theorem kept_strict {α : Type} {s : Bool} {p : Dec (α × Option Err)} (hp : p.Strict s) (old : α) : (do
    let (v, err) ← p
    match err with
    | some e => pure (old, some e)
    | none => pure (v, none) : Dec (α × Option Err)).Strict s := by
  intro P h
  strict_try (hp P h)
  trivial

theorem kind_strict (s : Bool) (b : Basic) (old : b.Val) : (b.readKind old).Strict s := by
  cases b with
  | u64 => exact kept_strict (readUint64_strict s) _
  | u32 => exact kept_strict (readUint32_strict s) _
  | i64 => exact kept_strict (readInt64_strict s) _
  | i32 => exact kept_strict (readInt32_strict s) _
  | _ => exact fun _ _ => trivial

theorem optBytes_strict (s : Bool) (o : Option Bytes) : (unmarshalBytes o).Strict s := by
  intro P hP
  unfold unmarshalBytes
  strict_try (bytesT_strict s _ P hP)
  trivial

theorem chainTy_strict (s : Bool) (c : ChainTy) (hc : s = true ∨ c.Firm) (v : c.Val) : (c.unmarshal v).Strict s := by
  have h := C09_chain_strict s
  cases c with
  | action =>
    rcases hc with rfl | hc
    · exact action_strict v
    · exact absurd rfl hc.2.1
  | transaction =>
    rcases hc with rfl | hc
    · exact transaction_strict v
    · exact absurd rfl hc.2.2
  | permissionLevel =>
    rcases hc with rfl | hc
    · exact perm_strict v
    · exact absurd rfl hc.1
  | blob => exact optBytes_strict s v
  | bytes => exact optBytes_strict s v
  | publicKey => exact h.2.2.2.2.2.2.2.2.2.2.2.2.1 v
  | signature => exact h.2.2.2.2.2.2.2.2.2.2.2.2.2.1 v
  | transactionExtension => exact extension_strict s v
  | asset => exact asset_strict s v
  | blockNum => exact blockNum_strict s v
  | blockTimestamp => exact timePointSec_strict s v
  | timePointSec => exact timePointSec_strict s v
  | checksum160 => exact checksum_strict s 20 v
  | checksum256 => exact checksum_strict s 32 v
  | checksum512 => exact checksum_strict s 64 v
  | float128 => exact float128_strict s v
  | int128 => exact u128_strict s v
  | uint128 => exact u128_strict s v
  | name => exact name_strict s v
  | symbol => exact symbol_strict s v
  | symbolCode => exact symbol_strict s v
  | uint64 => exact uint64_strict s v
  | timePoint => exact timePoint_strict s v
  | transactionHeader => exact header_strict s v
  | extendedAsset => exact extendedAsset_strict s v

def Ty.isChain : Ty → Bool
  | .chain _ => true
  | _ => false

theorem chainDecoder_else (t : Ty) (ht : t.isChain = false) (old : t.Val) : chainDecoder t old = pure (old, false, none) := by
  cases t <;> first | rfl | cases ht

theorem via_strict {s : Bool} (t : Ty) (ht : t.isChain = false) (mode : Mode) (old : t.Val) (fast slow : t.Val → Dec (t.Val × Option Err)) (hf : ∀ x, (fast x).Strict s)
    (hs : ∀ x, (slow x).Strict s) : (viaDecFn chainDecoder t mode old fast slow).Strict s := by
  cases mode with
  | value => exact hs old
  | variant _ => exact fun _ _ => trivial
  | member => exact fun _ _ => trivial
  | decode => unfold viaDecFn; rw [chainDecoder_else t ht]; exact hf old
  | elem => unfold viaDecFn; rw [chainDecoder_else t ht]; exact hf old

theorem decodeBytes_strict (s : Bool) (old : Option Bytes) : (decodeBytes old).Strict s := by
  intro P hP
  unfold decodeBytes
  strict_try (readVaruint_strict s P hP)
  dsimp only
  exact readBytes_bind_strict _ _ (fun _ => trivial) (fun _ _ _ h => h)

theorem decodeSlice_strict {α : Type} (s : Bool) (zero : α) (size : Nat) (dec : α → Dec (α × Option Err)) (h : ∀ x, (dec x).Strict s) (old : Option (List α)) :
    (decodeSlice zero size dec old).Strict s := by
  intro P hc
  unfold decodeSlice
  strict_try (readVaruint_strict s P hc)
  dsimp only
  split
  · unfold makeSlice
    split
    · trivial
    · split
      · trivial
      · exact (decEach_strict s dec h _ P hc).bind (fun _ => trivial) (fun _ _ h => h)
  · exact (decEach_strict s dec h _ P hc).bind (fun _ => trivial) (fun _ _ h => h)

theorem mapLoop_strict {α β : Type} [DecidableEq α] (s : Bool) (dk : Dec (α × Option Err)) (dv : Dec (β × Option Err)) (hk : dk.Strict s) (hv : dv.Strict s) (n : Nat) (m : List (α × β)) :
    (mapLoop dk dv n m).Strict s := by
  intro P hc
  induction n generalizing m with
  | zero => trivial
  | succ n ih =>
    unfold mapLoop
    strict_try (hk P hc)
    dsimp only
    strict_try (hv P hc)
    exact ih _

theorem decodeMap_strict {α β : Type} [DecidableEq α] (s : Bool) (dk : Dec (α × Option Err)) (dv : Dec (β × Option Err)) (hk : dk.Strict s) (hv : dv.Strict s) (old : Option (List (α × β))) :
    (decodeMap dk dv old).Strict s := by
  intro P hc
  unfold decodeMap
  strict_try (readVaruint_strict s P hc)
  exact (mapLoop_strict s dk dv hk hv _ _ P hc).bind (fun _ => trivial) (fun _ _ h => h)

theorem decodeField_strict {α β : Type} (s : Bool) (vis : Vis) (tag : Tag) (ht : tag ≠ .extension) (x x' zero : α) (dec : Mode → Dec (α × Option Err)) (hd : ∀ m, (dec m).Strict s) (xs : β)
    (rest : Option Err → Dec (β × Option Err)) (hr : (rest none).Strict s) : (decodeField vis tag x x' zero dec xs none rest).Strict s := by
  intro P hc
  have next : ∀ y : α, (do let (ys, err) ← rest none; pure ((y, ys), err) : Dec ((α × β) × Option Err)).StrictP s P := fun y =>
    (hr P hc).bind (fun _ => trivial) (fun _ _ h => h)
  cases vis with
  | blank => exact next x
  | unexported => trivial
  | exported =>
    cases tag with
    | none =>
      unfold decodeField
      strict_try (hd .elem P hc)
      exact next _
    | optional =>
      unfold decodeField
      strict_try (readBool_strict s P hc)
      dsimp only
      split
      · strict_try (hd .elem P hc)
        exact next _
      · exact next _
    | extension => exact absurd rfl ht
    | variant =>
      unfold decodeField
      strict_try (readByte_strict s P hc)
      dsimp only
      strict_try (hd (.variant _) P hc)
      exact next _

theorem map_strict {α β : Type} {s : Bool} {p : Dec (α × Option Err)} (hp : p.Strict s) (f : α → β) : (do
    let (x, err) ← p
    pure (f x, err) : Dec (β × Option Err)).Strict s := by
  intro P h
  exact (hp P h).bind (fun _ => trivial) (fun _ _ h => h)

mutual
theorem ty_strict (s : Bool) : (t : Ty) → t.NoExt s → (m : Mode) → (old : t.Val) → (decodeWith chainDecoder t m old).Strict s
  | .basic b, _, m, old => via_strict (.basic b) rfl m old _ _ (fun _ => basic_strict s b) (kind_strict s b)
  | .named b, _, m, old => via_strict (.named b) rfl m old _ _ (kind_strict s b) (kind_strict s b)
  | .unsupported, _, m, old => via_strict .unsupported rfl m old _ _ (fun _ _ _ => trivial) (fun _ _ _ => trivial)
  | .ref i z a, _, m, old => by
    cases m with
    | «variant» _ => exact fun _ _ => trivial
    | decode => exact via_strict (.ref i z a) rfl .decode old (fun _ => .diverge) (fun _ => .diverge) (fun _ _ _ => trivial) (fun _ _ _ => trivial)
    | elem => exact via_strict (.ref i z a) rfl .elem old (fun _ => .diverge) (fun _ => .diverge) (fun _ _ _ => trivial) (fun _ _ _ => trivial)
    | value => exact via_strict (.ref i z a) rfl .value old (fun _ => .diverge) (fun _ => .diverge) (fun _ _ _ => trivial) (fun _ _ _ => trivial)
    | member => exact via_strict (.ref i z a) rfl .member old (fun _ => .diverge) (fun _ => .diverge) (fun _ _ _ => trivial) (fun _ _ _ => trivial)
  | .bytes, _, m, old => via_strict .bytes rfl m old _ _ (decodeBytes_strict s) (decodeSlice_strict s _ _ _ fun x => readUint8_strict s)
  | .chain c, h, m, old => by
    cases m with
    | «variant» _ => exact chainTy_strict s c h old
    | decode => rw [decode_chain c _ (by simp [Mode.Plain]) old]; exact chainTy_strict s c h old
    | elem => rw [decode_chain c _ (by simp [Mode.Plain]) old]; exact chainTy_strict s c h old
    | value => rw [decode_chain c _ (by simp [Mode.Plain]) old]; exact chainTy_strict s c h old
    | member => exact fun _ _ => trivial
  | .ptr t, h, m, old => by
    have ih := ty_strict s t h
    cases m with
    | elem => exact map_strict (ih .decode _) _
    | «variant» i => exact map_strict (ih (.variant i) _) _
    | member =>
      intro P hP
      unfold decodeWith
      strict_try (ih .decode _ P hP)
      trivial
    | decode => exact map_strict (ih .value _) _
    | value => exact map_strict (ih .value _) _
  | .slice t, h, m, old => via_strict (.slice t) rfl m old _ _ (decodeSlice_strict s _ _ _ (ty_strict s t h .elem)) (decodeSlice_strict s _ _ _ (ty_strict s t h .elem))
  | .array n t, h, m, old => via_strict (.array n t) rfl m old _ _ (decEach_strict s _ (ty_strict s t h .elem)) (decEach_strict s _ (ty_strict s t h .elem))
  | .map k e, h, m, old => via_strict (.map k e) rfl m old _ _ (decodeMap_strict s _ _ (ty_strict s k h.1 _ _) (ty_strict s e h.2 _ _))
    (decodeMap_strict s _ _ (ty_strict s k h.1 _ _) (ty_strict s e h.2 _ _))
  | .struct fs, h, m, old => by
    have ih := fields_strict s fs h
    have ihm := member_strict s fs h
    cases m with
    | «variant» i =>
      unfold decodeWith
      dsimp only
      split
      · exact fun _ _ => trivial
      · split
        · exact fun _ _ => trivial
        · exact ihm _ _
    | decode => exact via_strict (.struct fs) rfl .decode old _ _ ih ih
    | elem => exact via_strict (.struct fs) rfl .elem old _ _ ih ih
    | value => exact via_strict (.struct fs) rfl .value old _ _ ih ih
    | member => exact via_strict (.struct fs) rfl .member old _ _ ih ih
theorem fields_strict (s : Bool) : (fs : Fields) → fs.NoExt s → (old : fs.Val) → (decodeFields chainDecoder fs none old).Strict s
  | .nil, _, _ => fun _ _ => trivial
  | .cons vis tag t fs, h, (x, xs) => decodeField_strict s vis tag h.1 x _ _ _ (fun m => ty_strict s t h.2.1 m _) xs
      (fun err => decodeFields chainDecoder fs err xs) (fields_strict s fs h.2.2 xs)
theorem member_strict (s : Bool) : (fs : Fields) → fs.NoExt s → (n : Nat) → (old : fs.Val) → (decodeMember chainDecoder fs n old).Strict s
  | .nil, _, _, _ => fun _ _ => trivial
  | .cons vis _ t fs, h, 0, (x, xs) => by
    have ih := ty_strict s t h.2.1 .member x
    intro P hP
    refine Dec.StrictP.bind (ih P hP) (fun r => ?_) (fun _ _ h => h)
    obtain ⟨y, e⟩ := r
    cases e with
    | some e => trivial
    | none =>
      dsimp only
      split <;> trivial
  | .cons _ _ t fs, h, n + 1, (x, xs) => map_strict (member_strict s fs h.2.2 n xs) _
end

/-! ## Encoding -/

theorem basicWrite_strict (b : Basic) (v : b.Val) : (b.write v).Strict := by
  cases b with
  | bool => exact writeBool_strict v
  | string => exact writeString_strict v
  | u8 => exact writeUint8_strict v
  | u16 => exact writeUint16_strict v
  | u32 => exact writeUint32_strict v
  | u64 => exact writeUint64_strict v
  | i8 => exact writeInt8_strict v
  | i16 => exact writeInt16_strict v
  | i32 => exact writeInt32_strict v
  | i64 => exact writeInt64_strict v
  | f32 => exact writeBytes_strict _
  | f64 => exact writeBytes_strict _
  | int => exact writeVarint_strict v
  | uint => exact writeVaruint_strict v

theorem kindWrite_strict (b : Basic) (v : b.Val) : (b.writeKind v).Strict := by
  cases b with
  | u32 => exact writeUint32_strict v
  | u64 => exact writeUint64_strict v
  | i32 => exact writeInt32_strict v
  | i64 => exact writeInt64_strict v
  | _ => trivial

theorem chainWrite_strict (c : ChainTy) (hc : c.Firm) (v : c.Val) : (c.marshal v).Strict := by
  have h := C10_chain_strict
  cases c with
  | action => exact absurd rfl hc.2.1
  | transaction => exact absurd rfl hc.2.2
  | permissionLevel => exact absurd rfl hc.1
  | blob => exact bytesT_write_strict _
  | bytes => exact bytesT_write_strict _
  | publicKey => exact h.2.2.2.2.2.2.2.2.2.2.2.2.1 v
  | signature => exact h.2.2.2.2.2.2.2.2.2.2.2.2.2.1 v
  | transactionExtension => exact extension_write_strict v
  | asset => exact h.2.2.1 v
  | transactionHeader => exact header_write_strict v
  | extendedAsset => exact h.2.2.2.1 v
  | _ => exact writeBytes_strict _

theorem encEach_strict {α : Type} (enc : α → Enc (Option Err)) (h : ∀ x, (enc x).Strict) (xs : List α) : (encEach enc (pure none) xs).Strict := by
  induction xs with
  | nil => trivial
  | cons x xs ih => exact (h x).seq ih

theorem chainEncoder_else (t : Ty) (ht : t.isChain = false) (v : t.Val) (k : Enc (Option Err)) : viaEncFn chainEncoder t v k = k := by
  cases t <;> first | rfl | cases ht

theorem chainEncode_strict (c : ChainTy) (hc : c.Firm) (v : c.Val) : (encodeWith chainEncoder (.chain c) v).Strict := by
  rw [show encodeWith chainEncoder (.chain c) v = c.marshal v from encode_chain c v]
  exact chainWrite_strict c hc v

mutual
theorem tyWrite_strict : (t : Ty) → t.NoOpt → (v : t.Val) → (encodeWith chainEncoder t v).Strict
  | .basic b, _, v => basicWrite_strict b v
  | .named b, _, v => kindWrite_strict b v
  | .unsupported, _, _ => trivial
  | .ref _ _ _, _, _ => trivial
  | .bytes, _, v => (writeVaruint_strict _).seq (writeBytes_strict _)
  | .chain c, h, v => chainEncode_strict c h v
  | .ptr t, h, v => by
    have ih := tyWrite_strict t h
    unfold encodeWith
    rw [chainEncoder_else _ rfl]
    cases t with
    | chain c =>
      cases v with
      | none => trivial
      | some x => exact chainWrite_strict c h x
    | _ =>
      cases v with
      | none => trivial
      | some x => exact ih x
  | .slice t, h, v => (writeVaruint_strict _).seq (encEach_strict _ (tyWrite_strict t h) _)
  | .array _ t, h, v => encEach_strict _ (tyWrite_strict t h) _
  | .map k e, h, v => (writeVaruint_strict _).seq (encEach_strict _ (fun x : k.Val × e.Val => (tyWrite_strict k h.1 x.1).seq (tyWrite_strict e h.2 x.2)) _)
  | .struct fs, h, v => fieldsWrite_strict fs h v
theorem fieldsWrite_strict : (fs : Fields) → fs.NoOpt → (v : fs.Val) → (encodeFields chainEncoder fs v).Strict
  | .nil, _, _ => trivial
  | .cons vis tag t fs, h, (x, xs) => by
    have h1 := tyWrite_strict t h.2.1 x
    have h2 := fieldsWrite_strict fs h.2.2 xs
    show (encodeField vis tag (t.isZero x) (encodeWith chainEncoder t x) (encodeFields chainEncoder fs xs)).Strict
    unfold encodeField
    rw [if_neg h.1]
    split
    · exact h1.seq h2
    · trivial
end

end Verif
