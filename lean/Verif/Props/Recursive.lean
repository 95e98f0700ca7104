import Verif.Props.Reflect
import Verif.Spec.Recursive
import Verif.Lemmas.RecursiveSim
import Verif.Lemmas.RecursiveTerm
import Verif.Lemmas.RecursiveEnc
import Verif.Lemmas.RecursiveRound
/-! # C77: Go struct types that mention themselves -/
namespace Verif

/-! ## What the code does with a recursive type does not depend on the depth at which the model unfolds it -/

/-- A result or panic of Decode at one depth is the result or panic at every larger depth. -/
theorem C77_depth_decode (D : Decls) (hD : D.Ok) (t : Ty) (ht : t.RefsOk D) (n k : Nat) (old : (t.unfold D n).Val) (fin : Err) (bs : Bytes) :
    (∀ w e r, (decode (t.unfold D n) old).runE fin bs = .ok (w, e) r → (decode (t.unfold D (n + k)) (t.lift D k old)).runE fin bs = .ok (t.lift D k w, e) r) ∧
    ∀ why, (decode (t.unfold D n) old).runE fin bs = .panic why → (decode (t.unfold D (n + k)) (t.lift D k old)).runE fin bs = .panic why :=
  have h := (lift_decode D hD t ht .decode old k).runE fin bs
  ⟨fun w e r => h.1 (w, e) r, h.2⟩

/-- The same for Encode, over any writer. -/
theorem C77_depth_encode (D : Decls) (hD : D.Ok) (t : Ty) (ht : t.RefsOk D) (n k : Nat) (v : (t.unfold D n).Val) (w : Nat → WEv) :
    (∀ e out fl, (encode (t.unfold D n) v).runW w = .ok e out fl → (encode (t.unfold D (n + k)) (t.lift D k v)).runW w = .ok e out fl) ∧
    ∀ why, (encode (t.unfold D n) v).runW w = .panic why → (encode (t.unfold D (n + k)) (t.lift D k v)).runW w = .panic why :=
  (lift_encode D hD t ht v k).runW w

/-- Different values stay different. -/
theorem C77_depth_values (D : Decls) (hD : D.Ok) (t : Ty) (n k : Nat) (v w : (t.unfold D n).Val) (h : t.lift D k v = t.lift D k w) : v = w :=
  lift_inj D hD t k v w h

/-! ## Termination -/

/-- Encode ends on every value: values are finite. -/
theorem C77_encode_ends (D : Decls) (t : Ty) (n : Nat) (v : (t.unfold D n).Val) (h : (t.unfold D n).Ends v) (w : Nat → WEv) : (encode (t.unfold D n) v).runW w ≠ .diverge :=
  (encode_finite _ v h).runW w

/-- If every mention of a declared type is behind a byte of input, Decode ends, at a depth of at most twice the length of the input. -/
theorem C77_decode_ends_partial (D : Decls) (hD : D.Ok) (hg : ∀ i, (D i).Guarded) (t : Ty) (ht : t.RefsOk D) (n : Nat) (old : (t.unfold D n).Val) (fin : Err) (bs : Bytes)
    (hn : 2 * bs.length < n) : (decode (t.unfold D n) old).runE fin bs ≠ .diverge :=
  (ty_halt (level_halt D hD hg n) t (Ty.RefsOk.keys t ht)).1 .decode old (fun _ h => nomatch h) fin bs (by omega)

/-! ## Round trip -/

/-- What Encode writes for a value of a recursive type is what Encode writes at every larger depth, and is read back by Decode at every larger depth. -/
theorem C77_roundtrip_partial (D : Decls) (hD : D.Ok) (he : ∀ i, (D i).Encodable) (hd : ∀ i, (D i).Decodable) (t : Ty) (ht : t.RefsOk D) (he' : t.Encodable) (hd' : t.Decodable .decode)
    (n : Nat) (v : (t.unfold D n).Val) (hw : (t.unfold D n).Wf v) :
    ∃ bs w, (t.unfold D n).Same v w ∧ (∀ k, (encode (t.unfold D (n + k)) (t.lift D k v)).Writes bs) ∧
      ∀ k, (decode (t.unfold D (n + k)) (t.unfold D (n + k)).zero).Reads bs (t.lift D k w) := by
  obtain ⟨bs, h1, h2⟩ := C40_roundtrip_partial (t.unfold D n) v (subst_encodable (level_encodable D he n) t he') (subst_decodable (level_decodable D hd n) t _ hd') hw
  obtain ⟨w, h3, h4⟩ := h2 _ (clean_zero _)
  refine ⟨bs, w, h3, fun k => ?_, fun k fin rest => ?_⟩
  · exact (lift_encode D hD t ht v k).run_ok h1
  · have := (C77_depth_decode D hD t ht n k _ fin (bs ++ rest)).1 _ _ _ (h4 fin rest)
    rw [lift_zero D hD t k] at this
    exact this

/-! ## The recursion -/

theorem bind_diverge {α β : Type} {p : Dec α} {g : α → Dec β} {fin : Err} {bs : Bytes} (h : p.runE fin bs = .diverge) : (p >>= g).runE fin bs = .diverge := by
  rw [Dec.runE_bind, h]
  rfl

theorem field_diverge {α β : Type} (tag : Tag) (htag : tag = .none ∨ tag = .extension) (x x' z : α) (dec : Mode → Dec (α × Option Err)) (xs : β) (err : Option Err) (rest : Option Err → Dec (β × Option Err))
    {fin : Err} {bs : Bytes} (h : (dec .elem).runE fin bs = .diverge) : (decodeField .exported tag x x' z dec xs err rest).runE fin bs = .diverge := by
  rcases htag with rfl | rfl <;> exact bind_diverge h

/-- type T struct { Next *T; … } and type T struct { Next *T `eosio:"extension"`; … }: Decode does not end on any input. -/
theorem C77_unguarded_violated (D : Decls) (i s a : Nat) (tag : Tag) (htag : tag = .none ∨ tag = .extension) (fs : Fields) (h : D i = .cons .exported tag (.ptr (.ref i s a)) fs)
    (n : Nat) (old : ((Ty.ref i s a).unfold D n).Val) (fin : Err) (bs : Bytes) : (decode ((Ty.ref i s a).unfold D n) old).runE fin bs = .diverge := by
  change (D.level n i s a).Val at old
  show (decodeWith chainDecoder (D.level n i s a) .decode old).runE fin bs = _
  induction n with
  | zero => rfl
  | succ n ih =>
    have key : ∀ (gs : Fields) (e : gs = .cons .exported tag (.ptr (.ref i s a)) fs) (old : (Ty.struct (gs.subst (D.level n))).Val),
        (decodeWith chainDecoder (.struct (gs.subst (D.level n))) .decode old).runE fin bs = .diverge := by
      rintro _ rfl old
      obtain ⟨x, xs⟩ : Option (D.level n i s a).Val × (fs.subst (D.level n)).Val := old
      exact field_diverge tag htag x _ _ (fun m => decodeWith chainDecoder (.ptr (D.level n i s a)) m _) xs none
        (fun err => decodeFields chainDecoder (fs.subst (D.level n)) err xs) (bind_diverge (ih _))
    exact key (D i) h old

/-- type Tree struct { Children []Tree } -/
def treeDecls : Decls := fun _ => .cons .exported .none (.slice (.ref 0 24 8)) .nil
def treeTy : Ty := .ref 0 24 8

theorem tree_ok : treeDecls.Ok := fun _ => ⟨(by decide +kernel : (treeDecls 0).layout 0 1 = (24, 8)), trivial⟩

theorem bind_run {α β : Type} {p : Dec α} {g : α → Dec β} {fin : Err} {bs r : Bytes} {a : α} (h : p.runE fin bs = .ok a r) : (p >>= g).runE fin bs = (g a).runE fin r := by
  rw [Dec.runE_bind, h]
  rfl

theorem read_zero (fin : Err) (bs : Bytes) : readVaruint.runE fin (0 :: bs) = .ok (0, none) bs :=
  (congrArg (fun b => readVaruint.runE fin (b ++ bs)) (by decide +kernel : [0] = varuintBytes (0 : UInt64).toNat)).trans (varuint_reads64 0 (by decide) fin bs)
theorem read_one (fin : Err) (bs : Bytes) : readVaruint.runE fin (1 :: bs) = .ok (1, none) bs :=
  (congrArg (fun b => readVaruint.runE fin (b ++ bs)) (by decide +kernel : [1] = varuintBytes (1 : UInt64).toNat)).trans (varuint_reads64 1 (by decide) fin bs)

theorem slice_zero {α : Type} (z : α) (d : α → Dec (α × Option Err)) (fin : Err) (bs : Bytes) : (decodeSlice z 24 d none).runE fin (0 :: bs) = .ok (none, none) bs := by
  unfold decodeSlice
  rw [bind_run (read_zero fin bs)]
  rfl

theorem slice_one {α : Type} (z : α) (d : α → Dec (α × Option Err)) (fin : Err) (bs : Bytes) : (decodeSlice z 24 d none).runE fin (1 :: bs) =
    (d z >>= fun x => match x.2 with | some e => Pure.pure (some [x.1], some e) | none => Pure.pure (some [x.1], none)).runE fin bs := by
  unfold decodeSlice
  rw [bind_run (read_one fin bs)]
  show (decEach d [z] >>= fun x => Pure.pure (some x.1, x.2)).runE fin bs = _
  unfold decEach
  rw [Dec.runE_bind, Dec.runE_bind, Dec.runE_bind]
  cases (d z).runE fin bs with
  | ok a r =>
    obtain ⟨y, _ | e⟩ := a <;> rfl
  | panic w => rfl
  | diverge => rfl

theorem tree_eq (n : Nat) : (decodeWith chainDecoder (treeDecls.level (n + 1) 0 24 8) .elem (treeDecls.level (n + 1) 0 24 8).zero) =
    (decodeField .exported .none (none : Option (List (treeDecls.level n 0 24 8).Val)) none none
      (fun m => decodeWith chainDecoder (.slice (treeDecls.level n 0 24 8)) m (none : Option (List (treeDecls.level n 0 24 8).Val))) () none (fun err => Pure.pure ((), err))) := rfl

theorem tree_size (n : Nat) : (treeDecls.level n 0 24 8).size = 24 := congrArg Prod.fst (level_layout treeDecls tree_ok n 0 24 8 (by decide +kernel))

theorem tree_elem (n : Nat) (fin : Err) (bs : Bytes) : (show Dec (Option (List (treeDecls.level n 0 24 8).Val) × Option Err) from
      decodeWith chainDecoder (.slice (treeDecls.level n 0 24 8)) .elem (none : Option (List (treeDecls.level n 0 24 8).Val))).runE fin bs =
    (decodeSlice (treeDecls.level n 0 24 8).zero 24 (decodeWith chainDecoder (treeDecls.level n 0 24 8) .elem) none).runE fin bs :=
  congrArg (fun s => (decodeSlice (treeDecls.level n 0 24 8).zero s (decodeWith chainDecoder (treeDecls.level n 0 24 8) .elem) none).runE fin bs) (tree_size n)

/-- The recursion is as deep as the input asks for: k bytes 1 take more than k levels, and a byte 0 behind them ends it. -/
theorem C77_depth_linear (k n : Nat) (fin : Err) (rest : Bytes) :
    (n ≤ k → (decode (treeTy.unfold treeDecls n) (treeTy.unfold treeDecls n).zero).runE fin (List.replicate k 1 ++ rest) = .diverge) ∧
    (k < n → ∃ w, (decode (treeTy.unfold treeDecls n) (treeTy.unfold treeDecls n).zero).runE fin (List.replicate k 1 ++ 0 :: rest) = .ok (w, none) rest) := by
  have e : decode (treeTy.unfold treeDecls n) (treeTy.unfold treeDecls n).zero = decodeWith chainDecoder (treeDecls.level n 0 24 8) .elem (treeDecls.level n 0 24 8).zero := by
    cases n <;> rfl
  rw [e]
  clear e
  constructor
  · intro h
    induction n generalizing k with
    | zero => rfl
    | succ n ih =>
      obtain ⟨k, rfl⟩ : ∃ j, k = j + 1 := ⟨k - 1, by omega⟩
      rw [tree_eq]
      refine field_diverge .none (.inl rfl) _ _ _ _ _ _ _ ?_
      exact (tree_elem n fin (1 :: (List.replicate k 1 ++ rest))).trans ((slice_one _ _ fin _).trans (bind_diverge (ih k (by omega))))
  · intro h
    induction n generalizing k with
    | zero => omega
    | succ n ih =>
      have field : ∀ (bs : Bytes) (w : Option (List (treeDecls.level n 0 24 8).Val)),
          (decodeWith chainDecoder (.slice (treeDecls.level n 0 24 8)) .elem (none : Option (List (treeDecls.level n 0 24 8).Val))).runE fin bs = .ok (w, none) rest →
          ∃ w, (decodeWith chainDecoder (treeDecls.level (n + 1) 0 24 8) .elem (treeDecls.level (n + 1) 0 24 8).zero).runE fin bs = .ok (w, none) rest := by
        intro bs w hw
        rw [tree_eq]
        exact ⟨((w, ()) : Option (List (treeDecls.level n 0 24 8).Val) × Unit), bind_run hw⟩
      cases k with
      | zero =>
        exact field _ none ((tree_elem n fin _).trans (slice_zero _ _ fin rest))
      | succ k =>
        obtain ⟨w, hw⟩ := ih k (by omega)
        exact field _ (some [w]) ((tree_elem n fin (1 :: (List.replicate k 1 ++ 0 :: rest))).trans ((slice_one _ _ fin _).trans (bind_run hw)))

theorem tree_guarded : ∀ i, (treeDecls i).Guarded := fun _ => ⟨.inr (.inr trivial), .inr trivial⟩

/-- Both kinds of recursion are met: a type that is guarded, and one that is not. -/
example : treeDecls.Ok ∧ treeTy.RefsOk treeDecls ∧ (∀ i, (treeDecls i).Guarded) ∧ ¬ (Fields.cons .exported .none (.ptr (.ref 0 8 8)) .nil).Guarded :=
  ⟨tree_ok, (tree_ok 0).1, tree_guarded, fun h => by rcases h.1 with h | h | h <;> first | cases h | exact h⟩

/-! ## testRecursiveStruct of pkg/abi/decode_test.go:32-35 -/

/-- type testRecursiveStruct struct { Answer uint64; Other *testRecursiveStruct `eosio:"optional"` } -/
def recDecls : Decls := fun _ => .cons .exported .none (.basic .u64) <| .cons .exported .optional (.ptr (.ref 0 16 8)) .nil
def recTy : Ty := .ref 0 16 8

theorem rec_ok : recDecls.Ok := fun _ => ⟨trivial, (by decide +kernel : (recDecls 0).layout 0 1 = (16, 8)), trivial⟩
theorem rec_guarded : ∀ i, (recDecls i).Guarded := fun _ => ⟨.inr (.inr trivial), .inl ⟨rfl, (fun h => nomatch h), .inr (.inr trivial)⟩⟩

/-- decode_test.go:42-49 -/
def recBytes : Bytes := [0x2a, 0, 0, 0, 0, 0, 0, 0, 1, 0xb2, 0xc9, 0x9e, 0xb3, 0x3c, 0x36, 0xe3, 0x05, 1, 0x1c, 0xd7, 0xe8, 0x08, 1, 0, 0, 0, 0]
def recVal : (recTy.unfold recDecls 3).Val :=
  ((42 : UInt64), some ((424242424242424242 : UInt64), some ((4444444444 : UInt64), none, ()), ()), ())

/-- decode_test.go:59-67, at every depth from 3 on -/
theorem C77_vector (k : Nat) : (encode (recTy.unfold recDecls (3 + k)) (recTy.lift recDecls k recVal)).Writes recBytes ∧
    (decode (recTy.unfold recDecls (3 + k)) (recTy.unfold recDecls (3 + k)).zero).run recBytes = .ok (recTy.lift recDecls k recVal, none) [] := by
  constructor
  · exact (lift_encode recDecls rec_ok recTy (rec_ok 0).2.1 recVal k).run_ok (show (encode (recTy.unfold recDecls 3) recVal).run = .ok none recBytes by decide +kernel)
  · have := (C77_depth_decode recDecls rec_ok recTy (rec_ok 0).2.1 3 k (recTy.unfold recDecls 3).zero .eof recBytes).1 recVal none []
      (by decide +kernel)
    rw [lift_zero recDecls rec_ok recTy k] at this
    exact this

example : (∀ i, (recDecls i).Encodable) ∧ (∀ i, (recDecls i).Decodable) ∧ recTy.Encodable ∧ recTy.Decodable .decode ∧ (recTy.unfold recDecls 3).Wf recVal ∧ (recTy.unfold recDecls 3).Ends recVal := by
  refine ⟨fun _ => ⟨rfl, trivial, rfl, trivial, trivial⟩, fun _ => ⟨rfl, (fun h => nomatch h), (fun h => nomatch h), rfl, (fun h => nomatch h), trivial, trivial⟩, trivial, trivial, ?_, ?_⟩
  · exact ⟨.inr trivial, .inr ⟨_, rfl, .inr trivial, .inr ⟨_, rfl, .inr trivial, .inl ⟨rfl, rfl⟩, trivial⟩, trivial⟩, trivial⟩
  · refine ⟨trivial, ?_, trivial⟩
    rintro _ ⟨⟩
    refine ⟨trivial, ?_, trivial⟩
    rintro _ ⟨⟩
    exact ⟨trivial, (fun _ h => nomatch h), trivial⟩

end Verif
