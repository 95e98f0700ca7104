import Verif.Lemmas.Methods
/-! # C114: types with methods MarshalABI and UnmarshalABI; C84 for embedded fields at any depth -/
namespace Verif

/-! ## C114 -/

/-- Encode of a value writes every part in its wire form, with the format of the type where the type has one; Decode reads any such data into any destination, whatever follows -/
theorem C114_round_trip (W : Formats) (M : Program) (hM : M.Keeps W) (t : MTy) (v : t.bare.Val) (hs : t.Sound W (fun i t => (M i t).receiver) .decode false) (hw : t.Wf W v) :
    (∃ bs, t.Layout W v bs ∧ (encodeM M t v).Writes bs) ∧
    ∀ bs, t.Layout W v bs → ∀ old, t.bare.Clean old → ∃ w, t.bare.Same v w ∧ (decodeM M t .decode old).Reads bs w :=
  ⟨encodeM_layout hM t v .decode hs hw, fun bs hl old hc => decodeM_layout hM t .decode false v old bs (.inl rfl) hs hw hc hl⟩

/-- So does Encode of a pointer to the value, and there MarshalABI may be defined on the pointer -/
theorem C114_pointer (W : Formats) (M : Program) (hM : M.Keeps W) (t : MTy) (v : t.bare.Val) (hs : t.Sound W (fun i t => (M i t).receiver) .decode true) (hw : t.Wf W v) :
    (∃ bs, t.Layout W v bs ∧ (encodeM M (.ptr t) (some v : Option t.bare.Val)).Writes bs) ∧
    ∀ bs, t.Layout W v bs → ∀ old, t.bare.Clean old → ∃ w, t.bare.Same v w ∧ (decodeM M t .decode old).Reads bs w := by
  refine ⟨?_, fun bs hl old hc => decodeM_layout hM t .decode true v old bs (.inl rfl) hs hw hc hl⟩
  obtain ⟨bs, ⟨x, hx, h1⟩, h2⟩ := encodeM_layout hM (.ptr t) (some v : Option t.bare.Val) .elem hs ⟨v, rfl, hw⟩
  cases hx
  exact ⟨bs, h1, h2⟩

/-- Where MarshalABI is nowhere defined on the pointer, Encode of a pointer is Encode of the value -/
theorem C114_address (M : Program) (hM : ∀ i t, (M i t).receiver ≠ .pointer) (t : MTy) (x : t.bare.Val) : encodeM M (.ptr t) (some x : Option t.bare.Val) = encodeM M t x := by
  refine (encodeM_ptr M t x).trans ?_
  cases t
  case own i t =>
    have := hM i t
    refine Eq.trans ?_ (encodeM_own M i t x).symm
    dsimp only
    cases h : (M i t).receiver
    · rfl
    · rfl
    · exact absurd h this
  all_goals rfl

/-- A MarshalABI defined on the pointer has no effect on values that are not directly behind a pointer: Encode writes their fields, as if there were no method -/
theorem C114_ignored (M : Program) (t : MTy) (h : t.Unseen (fun i t => (M i t).receiver) false) (v : t.bare.Val) : encodeM M t v = encode t.bare v := encodeM_unseen t v h

/-- Without methods, types are written and read as in all other properties -/
theorem C114_methodless (M : Program) (h1 : ∀ i t, (M i t).receiver = .none) (h2 : ∀ i t, (M i t).unmarshal = none) (t : MTy) (v : t.bare.Val) :
    encodeM M t v = encode t.bare v ∧ decodeM M t .decode v = decode t.bare v := by
  refine ⟨encodeM_unseen t v ?_, decodeM_none h2 t .decode (.inl rfl) v⟩
  have : (fun i t => (M i t).receiver) = fun _ _ => Receiver.none := funext fun i => funext fun fs => h1 i fs
  rw [this]
  exact unseen t false
where
  unseen : (t : MTy) → (b : Bool) → t.Unseen (fun _ _ => .none) b
    | .plain _, _ => trivial
    | .own _ t, _ => ⟨nofun, nofun, unseen t false⟩
    | .ptr t, _ => unseen t true
    | .slice t, _ => unseen t false
    | .array _ t, _ => unseen t false
    | .map _ t, _ => unseen t false
    | .struct fs, _ => unseenFields fs
  unseenFields : (fs : MFields) → fs.Unseen (fun _ _ => .none)
    | .nil => trivial
    | .cons _ t fs => ⟨unseen t false, unseenFields fs⟩

/-- UnmarshalABI is called on a value of the type and on what pointers to it lead to, whether or not there is a MarshalABI -/
theorem C114_read (M : Program) (i : Nat) (t : MTy) (u : t.bare.Val → Dec (t.bare.Val × Option Err)) (h : (M i t).unmarshal = some u) (old : t.bare.Val) :
    decodeM M (.own i t) .decode old = u old ∧
    ∀ m, m = .decode ∨ m = .elem → decodeM M (.ptr (.own i t)) m (some old : Option t.bare.Val) = Dec.bind (u old) fun p => .ret ((some p.1 : Option t.bare.Val), p.2) := by
  have key : ∀ m, decodeM M (.own i t) m old = u old := fun m => (decodeM_own M i t m old).trans (by rw [h])
  refine ⟨key _, fun m hm => ?_⟩
  rcases hm with rfl | rfl
  · exact congrArg (fun d => Dec.bind d fun p => .ret ((some p.1 : Option t.bare.Val), p.2)) (key .value)
  · exact congrArg (fun d => Dec.bind d fun p => .ret ((some p.1 : Option t.bare.Val), p.2)) (key .decode)

/-- A nil pointer: MarshalABI is called if it is defined on the pointer; without MarshalABI there is an error and nothing is written (the underlying type is not one of package chain with its methods) -/
theorem C114_nil (M : Program) (i : Nat) (t : MTy) :
    ((M i t).receiver = .pointer → encodeM M (.ptr (.own i t)) (none : Option t.bare.Val) = (M i t).marshalNil) ∧
    ((M i t).receiver = .none → (∀ c, t.bare ≠ .chain c) → (encodeM M (.ptr (.own i t)) (none : Option t.bare.Val)).run = .ok (some errNilPtr) []) := by
  have key : encodeM M (.ptr (.own i t)) (none : Option t.bare.Val) = match (none : Option t.bare.Val), (M i t).receiver with
    | some x, .none => encodeM M t x
    | some x, _ => (M i t).marshal x
    | none, .none => encode (.ptr t.bare) (none : Option t.bare.Val)
    | none, .value => .panic "value method called using nil pointer"
    | none, .pointer => (M i t).marshalNil := rfl
  refine ⟨fun h => by rw [key, h], fun h hc => ?_⟩
  rw [key, h]
  show (encode (.ptr t.bare) (none : Option t.bare.Val)).run = _
  generalize t.bare = u at hc
  cases u <;> first | exact absurd rfl (hc _) | rfl

example : ∀ c, (MTy.struct .nil).bare ≠ .chain c := nofun

/-! ### An example: struct { A uint8 }, whose methods write A + 1 and subtract 1 -/

def oneByte : MFields := .cons .none (.plain (.basic .u8)) .nil

/-- The program, by receiver of MarshalABI -/
def shifting (r : Receiver) : Program := fun _ t =>
  match t with
  | .struct (.cons .none (.plain (.basic .u8)) .nil) =>
    { receiver := r
      marshal := fun v => writeByte ((show UInt8 × Unit from v).1 + 1)
      marshalNil := pure none
      unmarshal := some fun old => do
        let (b, err) ← readByte
        match err with
        | some e => pure (old, some e)
        | none => pure (((b - 1, ()) : UInt8 × Unit), none) }
  | _ => ⟨.none, fun _ => pure none, pure none, none⟩

def shiftedBy1 : Formats := fun _ t =>
  match t with
  | .struct (.cons .none (.plain (.basic .u8)) .nil) => some ⟨fun _ => True, fun v bs => bs = [(show UInt8 × Unit from v).1 + 1]⟩
  | _ => none

theorem shifting_keeps (r : Receiver) : (shifting r).Keeps shiftedBy1 := by
  intro i t
  unfold shiftedBy1
  split
  · next f hf =>
    split at hf
    · cases hf
      refine ⟨fun v _ => ⟨_, rfl, rfl⟩, _, rfl, fun v old bs _ _ hb => ?_⟩
      obtain ⟨a, u⟩ : UInt8 × Unit := v
      subst hb
      refine ⟨((a, ()) : UInt8 × Unit), ⟨rfl, trivial⟩, fun fin rest => ?_⟩
      show Out.ok ((((a + 1 - 1, ()) : UInt8 × Unit)), none) rest = .ok (((a, ()) : UInt8 × Unit), none) rest
      rw [UInt8.add_sub_cancel]
    · cases hf
  · next hf =>
    split at hf
    · cases hf
    · next h =>
      unfold shifting
      split
      · exact absurd rfl h
      · exact ⟨rfl, rfl⟩

/-- Contrary to C114: with MarshalABI on the pointer and UnmarshalABI keeping the same format, Encode(T{5}) writes 5 while Encode(&T{5}) writes 6; Decode reads T{4} from the former.
In a slice of T it is the same. -/
theorem C114_violated : (shifting .pointer).Keeps shiftedBy1 ∧
    (encodeM (shifting .pointer) (.own 0 (.struct oneByte)) ((5, ()) : UInt8 × Unit)).run = .ok none [5] ∧
    (encodeM (shifting .pointer) (.ptr (.own 0 (.struct oneByte))) (some (5, ()) : Option (UInt8 × Unit))).run = .ok none [6] ∧
    (decodeM (shifting .pointer) (.own 0 (.struct oneByte)) .decode ((0, ()) : UInt8 × Unit)).run [5] = .ok (((4, ()) : UInt8 × Unit), none) [] ∧
    (encodeM (shifting .pointer) (.slice (.own 0 (.struct oneByte))) (some [(5, ())] : Option (List (UInt8 × Unit)))).run = .ok none [1, 5] ∧
    (decodeM (shifting .pointer) (.slice (.own 0 (.struct oneByte))) .decode (none : Option (List (UInt8 × Unit)))).run [1, 5] = .ok ((some [(4, ())] : Option (List (UInt8 × Unit))), none) [] :=
  ⟨shifting_keeps _, rfl, rfl, rfl, rfl, rfl⟩

/-- Encode of nil pointers gives an error; with MarshalABI on the value it panics -/
theorem C114_nil_violated : (∀ fs, (encodeM (shifting .value) (.ptr (.struct fs)) (none : Option fs.bare.Val)).run = .ok (some errNilPtr) []) ∧
    ∃ msg, (encodeM (shifting .value) (.slice (.ptr (.own 0 (.struct oneByte)))) (some [none] : Option (List (Option (UInt8 × Unit))))).run = .panic msg :=
  ⟨fun _ => rfl, _, rfl⟩

/-- struct { B []T; P *T; O T `optional` } -/
def nestedBytes : MTy := .struct (.cons .none (.slice (.own 0 (.struct oneByte))) (.cons .none (.ptr (.own 0 (.struct oneByte))) (.cons .optional (.own 0 (.struct oneByte)) .nil)))

def nestedValue : nestedBytes.bare.Val :=
  ((some [(5, ()), (255, ())], some (7, ()), (0, ()), ()) : Option (List (UInt8 × Unit)) × Option (UInt8 × Unit) × (UInt8 × Unit) × Unit)

example : nestedBytes.Sound shiftedBy1 (fun i t => (shifting .value i t).receiver) .decode false := ⟨.inl rfl, .inl rfl, .inl rfl, trivial⟩
example : nestedBytes.Wf shiftedBy1 nestedValue := by
  refine ⟨.inr ⟨?_, ?_, fun _ _ => trivial⟩, .inr ⟨_, rfl, trivial⟩, .inr trivial, trivial⟩
  · show 2 < 2 ^ 28; decide
  · show 2 * 1 ≤ maxAlloc; decide
example : (encodeM (shifting .value) nestedBytes nestedValue).run = .ok none [2, 6, 0, 8, 0] := rfl
example : MTy.Sound shiftedBy1 (fun i t => (shifting .pointer i t).receiver) (.own 0 (.struct oneByte)) .decode true := .inr ⟨rfl, rfl⟩
example : MTy.Unseen (fun i t => (shifting .pointer i t).receiver) (.slice (.own 0 (.struct oneByte))) false := ⟨nofun, fun _ => rfl, trivial, trivial⟩

/-- map[uint16]T -/
example : MTy.Sound shiftedBy1 (fun i t => (shifting .value i t).receiver) (.map (.basic .u16) (.own 0 (.struct oneByte))) .decode false :=
  ⟨trivial, ⟨nofun, nofun⟩, nofun, .inl rfl⟩
example : (encodeM (shifting .value) (.map (.basic .u16) (.own 0 (.struct oneByte))) (some [(3, (5, ()))] : Option (List (UInt16 × (UInt8 × Unit))))).run = .ok none [1, 3, 0, 6] := rfl

/-! ### Another: type Level uint8, whose methods write the complement -/

def levels : Program := fun _ t =>
  match t with
  | .plain (.named .u8) =>
    { receiver := .value
      marshal := fun v => writeByte (255 - (show UInt8 from v))
      marshalNil := pure none
      unmarshal := some fun old => do
        let (b, err) ← readByte
        match err with
        | some e => pure (old, some e)
        | none => pure ((255 - b : UInt8), none) }
  | _ => ⟨.none, fun _ => pure none, pure none, none⟩

def complements : Formats := fun _ t =>
  match t with
  | .plain (.named .u8) => some ⟨fun _ => True, fun v bs => bs = [255 - (show UInt8 from v)]⟩
  | _ => none

theorem levels_keeps : levels.Keeps complements := by
  intro i t
  unfold complements
  split
  · next f hf =>
    split at hf
    · cases hf
      refine ⟨fun v _ => ⟨_, rfl, rfl⟩, _, rfl, fun v old bs _ _ hb => ?_⟩
      change UInt8 at v
      subst hb
      refine ⟨v, rfl, fun fin rest => ?_⟩
      show Out.ok ((255 - (255 - v) : UInt8), none) rest = .ok (v, none) rest
      have : (255 - (255 - v) : UInt8) = v := by grind
      rw [this]
    · cases hf
  · next hf =>
    split at hf
    · cases hf
    · next h =>
      unfold levels
      split
      · exact absurd rfl h
      · exact ⟨rfl, rfl⟩

example : MTy.Sound complements (fun i t => (levels i t).receiver) (.slice (.own 0 (.plain (.named .u8)))) .decode false := .inl rfl
example : (encodeM levels (.slice (.own 0 (.plain (.named .u8)))) (some [5, 255] : Option (List UInt8))).run = .ok none [2, 250, 0] := rfl
example : (decodeM levels (.slice (.own 0 (.plain (.named .u8)))) .decode (none : Option (List UInt8))).run [2, 250, 0] = .ok ((some [5, 255] : Option (List UInt8)), none) [] := rfl

/-! ## C84 at any depth -/

/-- Structs that embed one type of package chain lose their other fields wherever they occur: values that differ only there are written alike -/
theorem C84_nested_violated (emb : Nat → List Bool) (t : MTy) (v w : t.bare.Val) (h : t.EqualBut emb v w) : encodeM (embedding emb) t v = encodeM (embedding emb) t w :=
  encodeM_equalBut emb t v w h

/-- Types without such structs are written and read field by field -/
theorem C84_nested_partial (emb : Nat → List Bool) (h : ∀ i (fs : MFields), fs.bare.promoters (emb i) ≠ 1) (t : MTy) (v : t.bare.Val) :
    encodeM (embedding emb) t v = encode t.bare v ∧ decodeM (embedding emb) t .decode v = decode t.bare v :=
  C114_methodless _ (fun i t => by cases t <;> first | rfl | (unfold embedding; dsimp only; rw [if_neg (h i _)]))
    (fun i t => by cases t <;> first | rfl | (unfold embedding; dsimp only; rw [if_neg (h i _)])) t v

def plainFields : List (FieldTag × Ty) → MFields
  | [] => .nil
  | (tag, t) :: l => .cons tag (.plain t) (plainFields l)

/-- At the top, with parts that have no methods of the user, this is what C84 is about -/
theorem C84_nested_top (emb : Nat → List Bool) (i : Nat) (l : List (FieldTag × Ty)) :
    let fs := plainFields l
    (∀ v : fs.bare.Val, encodeM (embedding emb) (.own i (.struct fs)) v = encodeEmbedding fs.bare (emb i) false v) ∧
    (∀ v : fs.bare.Val, encodeM (embedding emb) (.ptr (.own i (.struct fs))) (some v : Option fs.bare.Val) = encodeEmbedding fs.bare (emb i) true v) ∧
    ∀ v : fs.bare.Val, decodeM (embedding emb) (.own i (.struct fs)) .decode v = decodeEmbedding fs.bare (emb i) true v := by
  intro fs
  have he : ∀ v : fs.bare.Val, encodeM (embedding emb) (.struct fs) v = encode (.struct fs.bare) v := fun v => encodeMFields_unseen fs v (unseen l)
  have hd : ∀ v : fs.bare.Val, decodeM (embedding emb) (.struct fs) .decode v = decode (.struct fs.bare) v := fun v => decoded l none v
  by_cases h1 : fs.bare.promoters (emb i) = 1
  · refine ⟨fun v => (encodeM_own _ i (.struct fs) v).trans ?_, fun v => (encodeM_ptr _ (.own i (.struct fs)) v).trans ?_, fun v => (decodeM_own _ i (.struct fs) _ v).trans ?_⟩
    · rw [encodeEmbedding]
      cases h2 : fs.bare.valueMarshaler (emb i) <;> simp [embedding, h1, h2, he]
    · dsimp only
      rw [encodeEmbedding]
      cases h2 : fs.bare.valueMarshaler (emb i) <;> simp [embedding, h1, h2]
    · rw [decodeEmbedding]
      simp [embedding, h1]
      rfl
  · refine ⟨fun v => (encodeM_own _ i (.struct fs) v).trans ?_, fun v => (encodeM_ptr _ (.own i (.struct fs)) v).trans ?_, fun v => (decodeM_own _ i (.struct fs) _ v).trans ?_⟩
    · rw [encodeEmbedding]
      simp [embedding, h1, he]
    · dsimp only
      rw [encodeEmbedding]
      simp [embedding, h1, he]
    · rw [decodeEmbedding]
      simp [embedding, h1, hd]
      rfl
where
  unseen {r : Nat → MTy → Receiver} : (l : List (FieldTag × Ty)) → (plainFields l).Unseen r
    | [] => trivial
    | _ :: l => ⟨trivial, unseen l⟩
  decoded {M : Program} : (l : List (FieldTag × Ty)) → (err : Option Err) → (v : (plainFields l).bare.Val) →
      decodeMFields M (plainFields l) err v =
      decodeFields chainDecoder (plainFields l).bare err v
    | [], _, _ => rfl
    | (tag, t) :: l, err, v => by
      obtain ⟨x, xs⟩ : t.Val × (plainFields l).bare.Val := v
      exact congrArg (fun k => decodeField .exported tag.tag x (t.alloc x) t.zero (fun mode => decodeWith chainDecoder t mode (t.alloc x)) xs err k) (funext fun e => decoded l e xs)

/-- struct { chain.Name; Amount uint64 }, a slice of it -/
def namedAmounts : MTy := .slice (.own 0 (.struct (.cons .none (.plain (.chain .name)) (.cons .none (.plain (.basic .u64)) .nil))))

example : (encodeM (embedding fun _ => [true, false]) namedAmounts (some [(1, 2, ()), (3, 4, ())] : Option (List (UInt64 × UInt64 × Unit)))).run =
    .ok none [2, 1, 0, 0, 0, 0, 0, 0, 0, 3, 0, 0, 0, 0, 0, 0, 0] := rfl
example : namedAmounts.EqualBut (fun _ => [true, false]) (some [(1, 2, ())] : Option (List (UInt64 × UInt64 × Unit))) (some [(1, 9, ())] : Option (List (UInt64 × UInt64 × Unit))) := by
  refine .cons ?_ .nil
  show if _ ∧ _ then _ else _
  rw [if_pos ⟨rfl, rfl⟩]
  exact ⟨fun _ _ => rfl, (fun h => nomatch h : false = true → _), trivial⟩
example : (shifting .pointer 0 (.struct oneByte)).receiver = .pointer ∧ ∃ u, (shifting .none 0 (.struct oneByte)).unmarshal = some u := ⟨rfl, _, rfl⟩
example (i : Nat) (fs : MFields) : fs.bare.promoters ((fun _ => []) i) ≠ 1 := by cases fs <;> exact nofun

end Verif
