import Verif.Lemmas.Reflect
/-! # Optional, extension and variant fields of structs -/
namespace Verif

/-- Decoding a struct field of type t: a pointer field is decoded into what it points to, or into a new zero value if it is nil. -/
def fieldDecode : (t : Ty) → t.Val → Dec (t.Val × Option Err)
  | .ptr t, v => do
    let (x, err) ← decode t (Option.getD (α := t.Val) v t.zero)
    pure ((some x : Option t.Val), err)
  | t, v => decode t v

theorem elem_eq (t : Ty) (v : t.Val) : decodeWith chainDecoder t .elem v = fieldDecode t v := by
  cases t <;> first | rfl | skip
  all_goals simp only [fieldDecode, decode]
  all_goals rfl

theorem fieldDecode_alloc (t : Ty) (v : t.Val) : fieldDecode t (t.alloc v) = fieldDecode t v := by
  cases t <;> rfl

/-- The struct with fields `fs` preceded by one more exported field. -/
abbrev withField (tag : Tag) (t : Ty) (fs : Fields) : Ty := .struct (.cons .exported tag t fs)

theorem decode_field (tag : Tag) (t : Ty) (fs : Fields) (x : t.Val) (xs : fs.Val) :
    decode (withField tag t fs) ((x, xs) : t.Val × fs.Val) =
      decodeField .exported tag x (t.alloc x) t.zero (fun mode => decodeWith chainDecoder t mode (t.alloc x)) xs none
        (fun err => decodeFields chainDecoder fs err xs) := rfl

section
variable {α β : Type} {x x' z : α} {dec : Mode → Dec (α × Option Err)} {xs : β} {rest : Option Err → Dec (β × Option Err)} {fin : Err} {bs r r' : Bytes} {y : α} {ys : β} {e : Option Err}

theorem plain_ok (h : (dec .elem).runE fin bs = .ok (y, none) r) (hs : (rest none).runE fin r = .ok (ys, e) r') :
    (decodeField .exported .none x x' z dec xs none rest).runE fin bs = .ok ((y, ys), e) r' := by
  simp [decodeField, h, hs]
theorem plain_err {e : Err} (h : (dec .elem).runE fin bs = .ok (y, some e) r) :
    (decodeField .exported .none x x' z dec xs none rest).runE fin bs = .ok ((y, xs), some e) r := by
  simp [decodeField, h]

theorem readBool_cons (fin : Err) (b : UInt8) (bs : Bytes) : readBool.runE fin (b :: bs) = .ok (b != 0, none) bs := by
  simp [readBool, readByte_cons]
theorem readBool_nil (fin : Err) : readBool.runE fin [] = .ok (false, some (shortErr fin 0)) [] := rfl

theorem optional_absent (hs : (rest none).runE fin bs = .ok (ys, e) r') : (decodeField .exported .optional x x' z dec xs none rest).runE fin (0 :: bs) = .ok ((z, ys), e) r' := by
  simp [decodeField, readBool_cons, hs]
theorem optional_ok {b : UInt8} (hb : b ≠ 0) (h : (dec .elem).runE fin bs = .ok (y, none) r) (hs : (rest none).runE fin r = .ok (ys, e) r') :
    (decodeField .exported .optional x x' z dec xs none rest).runE fin (b :: bs) = .ok ((y, ys), e) r' := by
  simp [decodeField, readBool_cons, h, hs, hb]
theorem optional_err {b : UInt8} (hb : b ≠ 0) {e : Err} (h : (dec .elem).runE fin bs = .ok (y, some e) r) :
    (decodeField .exported .optional x x' z dec xs none rest).runE fin (b :: bs) = .ok ((y, xs), some e) r := by
  simp [decodeField, readBool_cons, h, hb]
theorem optional_end : (decodeField .exported .optional x x' z dec xs none rest).runE fin [] = .ok ((x', xs), some fin) [] := by
  simp [decodeField, readBool_nil, shortErr]

theorem extension_ok (h : (dec .elem).runE fin bs = .ok (y, none) r) (hs : (rest none).runE fin r = .ok (ys, e) r') :
    (decodeField .exported .extension x x' z dec xs none rest).runE fin bs = .ok ((y, ys), e) r' := by
  simp [decodeField, h, hs]
theorem extension_eof (h : (dec .elem).runE fin bs = .ok (y, some .eof) r) (hs : (rest (some .eof)).runE fin r = .ok (ys, e) r') :
    (decodeField .exported .extension x x' z dec xs none rest).runE fin bs = .ok ((z, ys), e) r' := by
  simp [decodeField, h, hs]
theorem extension_err {e : Err} (he : e ≠ .eof) (h : (dec .elem).runE fin bs = .ok (y, some e) r) :
    (decodeField .exported .extension x x' z dec xs none rest).runE fin bs = .ok ((y, xs), some e) r := by
  simp [decodeField, h, he]

theorem variant_ok {b : UInt8} (h : (dec (.variant b.toNat)).runE fin bs = .ok (y, none) r) (hs : (rest none).runE fin r = .ok (ys, e) r') :
    (decodeField .exported .variant x x' z dec xs none rest).runE fin (b :: bs) = .ok ((y, ys), e) r' := by
  simp [decodeField, readByte_cons, h, hs]
theorem variant_err {b : UInt8} {e : Err} (h : (dec (.variant b.toNat)).runE fin bs = .ok (y, some e) r) :
    (decodeField .exported .variant x x' z dec xs none rest).runE fin (b :: bs) = .ok ((y, xs), some e) r := by
  simp [decodeField, readByte_cons, h]
end

theorem fieldDecode_run {t : Ty} {x : t.Val} {fin : Err} {bs : Bytes} {o : Out (t.Val × Option Err)} (h : (fieldDecode t x).runE fin bs = o) :
    (decodeWith chainDecoder t .elem (t.alloc x)).runE fin bs = o := by
  rw [elem_eq, fieldDecode_alloc, h]

/-! ## C43 -/

/-- Fields are read one after the other: after a plain field come the others, as if they were a struct of their own; an error ends the decoding. -/
theorem C43_sequence (t : Ty) (fs : Fields) (x y : t.Val) (xs ys : fs.Val) (fin : Err) (bs r r' : Bytes) (e : Option Err)
    (h : (fieldDecode t x).runE fin bs = .ok (y, none) r) (hs : (decode (.struct fs) xs).runE fin r = .ok (ys, e) r') :
    (decode (withField .none t fs) ((x, xs) : t.Val × fs.Val)).runE fin bs = .ok (((y, ys) : t.Val × fs.Val), e) r' :=
  plain_ok (x := x) (x' := t.alloc x) (z := t.zero) (dec := fun mode => decodeWith chainDecoder t mode (t.alloc x)) (rest := fun err => decodeFields chainDecoder fs err xs) (fieldDecode_run h) hs
theorem C43_sequence_error (t : Ty) (fs : Fields) (x y : t.Val) (xs : fs.Val) (fin : Err) (bs r : Bytes) (e : Err)
    (h : (fieldDecode t x).runE fin bs = .ok (y, some e) r) :
    (decode (withField .none t fs) ((x, xs) : t.Val × fs.Val)).runE fin bs = .ok (((y, xs) : t.Val × fs.Val), some e) r :=
  plain_err (x := x) (x' := t.alloc x) (z := t.zero) (dec := fun mode => decodeWith chainDecoder t mode (t.alloc x)) (rest := fun err => decodeFields chainDecoder fs err xs) (fieldDecode_run h)

/-- A presence byte 0: the field has its zero value and nothing more is read for it. -/
theorem C43_optional_absent (t : Ty) (fs : Fields) (x : t.Val) (xs ys : fs.Val) (fin : Err) (bs r : Bytes) (e : Option Err)
    (hs : (decode (.struct fs) xs).runE fin bs = .ok (ys, e) r) :
    (decode (withField .optional t fs) ((x, xs) : t.Val × fs.Val)).runE fin (0 :: bs) = .ok (((t.zero, ys) : t.Val × fs.Val), e) r :=
  optional_absent (x := x) (x' := t.alloc x) (z := t.zero) (dec := fun mode => decodeWith chainDecoder t mode (t.alloc x)) (rest := fun err => decodeFields chainDecoder fs err xs) hs
/-- Any other presence byte: the field follows. -/
theorem C43_optional_present (t : Ty) (fs : Fields) (x y : t.Val) (xs ys : fs.Val) (fin : Err) (b : UInt8) (hb : b ≠ 0) (bs r r' : Bytes) (e : Option Err)
    (h : (fieldDecode t x).runE fin bs = .ok (y, none) r) (hs : (decode (.struct fs) xs).runE fin r = .ok (ys, e) r') :
    (decode (withField .optional t fs) ((x, xs) : t.Val × fs.Val)).runE fin (b :: bs) = .ok (((y, ys) : t.Val × fs.Val), e) r' :=
  optional_ok (x := x) (x' := t.alloc x) (z := t.zero) (dec := fun mode => decodeWith chainDecoder t mode (t.alloc x)) (rest := fun err => decodeFields chainDecoder fs err xs) hb (fieldDecode_run h) hs
theorem C43_optional_error (t : Ty) (fs : Fields) (x y : t.Val) (xs : fs.Val) (fin : Err) (b : UInt8) (hb : b ≠ 0) (bs r : Bytes) (e : Err)
    (h : (fieldDecode t x).runE fin bs = .ok (y, some e) r) :
    (decode (withField .optional t fs) ((x, xs) : t.Val × fs.Val)).runE fin (b :: bs) = .ok (((y, xs) : t.Val × fs.Val), some e) r :=
  optional_err (x := x) (x' := t.alloc x) (z := t.zero) (dec := fun mode => decodeWith chainDecoder t mode (t.alloc x)) (rest := fun err => decodeFields chainDecoder fs err xs) hb (fieldDecode_run h)
/-- No presence byte: an error. -/
theorem C43_optional_end (t : Ty) (fs : Fields) (x : t.Val) (xs : fs.Val) (fin : Err) :
    ∃ v, (decode (withField .optional t fs) ((x, xs) : t.Val × fs.Val)).runE fin [] = .ok (v, some fin) [] :=
  ⟨_, optional_end (x := x) (x' := t.alloc x) (z := t.zero) (dec := fun mode => decodeWith chainDecoder t mode (t.alloc x)) (rest := fun err => decodeFields chainDecoder fs err xs)⟩

/-- An extension field that is there is an ordinary field. -/
theorem C43_extension_present (t : Ty) (fs : Fields) (x y : t.Val) (xs ys : fs.Val) (fin : Err) (bs r r' : Bytes) (e : Option Err)
    (h : (fieldDecode t x).runE fin bs = .ok (y, none) r) (hs : (decode (.struct fs) xs).runE fin r = .ok (ys, e) r') :
    (decode (withField .extension t fs) ((x, xs) : t.Val × fs.Val)).runE fin bs = .ok (((y, ys) : t.Val × fs.Val), e) r' :=
  extension_ok (x := x) (x' := t.alloc x) (z := t.zero) (dec := fun mode => decodeWith chainDecoder t mode (t.alloc x)) (rest := fun err => decodeFields chainDecoder fs err xs) (fieldDecode_run h) hs

/-- On an empty stream: success or io.EOF. -/
def AtEnd {α : Type} (p : Dec (α × Option Err)) : Prop := ∃ v e, p.runE .eof [] = .ok (v, e) [] ∧ (e = none ∨ e = some .eof)

theorem AtEnd.of_eq {α : Type} {p q : Dec (α × Option Err)} (h : p = q) (hq : AtEnd q) : AtEnd p := h ▸ hq

theorem AtEnd.bind {α β : Type} {p : Dec (α × Option Err)} {f : α × Option Err → Dec (β × Option Err)} (hp : AtEnd p) (hf : ∀ a, AtEnd (f (a, none)))
    (he : ∀ a, AtEnd (f (a, some .eof))) : AtEnd (p >>= f) := by
  obtain ⟨v, e, h1, h2 | h2⟩ := hp <;> subst h2
  · obtain ⟨w, e, h3, h4⟩ := hf v
    exact ⟨w, e, by rw [Dec.runE_bind, h1]; exact h3, h4⟩
  · obtain ⟨w, e, h3, h4⟩ := he v
    exact ⟨w, e, by rw [Dec.runE_bind, h1]; exact h3, h4⟩

theorem AtEnd.pure {α : Type} (a : α) (e : Option Err) (he : e = none ∨ e = some .eof) : AtEnd (Pure.pure (a, e) : Dec (α × Option Err)) := ⟨a, e, rfl, he⟩

theorem chain_end (c : ChainTy) (old : c.Val) : AtEnd (c.unmarshal old) := by
  cases c <;> exact ⟨_, some .eof, rfl, .inr rfl⟩

theorem basic_end (b : Basic) : AtEnd b.read := by
  cases b <;> exact ⟨_, some .eof, rfl, .inr rfl⟩

theorem kind_end (b : Basic) (hb : b.Wide) (old : b.Val) : AtEnd (b.readKind old) := by
  cases b <;> first | exact ⟨_, some .eof, rfl, .inr rfl⟩ | exact hb.elim

theorem decEach_end {α : Type} (dec : α → Dec (α × Option Err)) (h : ∀ x, AtEnd (dec x)) (xs : List α) : AtEnd (decEach dec xs) := by
  induction xs with
  | nil => exact .pure _ _ (.inl rfl)
  | cons x xs ih => exact (h x).bind (fun a => ih.bind (fun _ => .pure _ _ (.inl rfl)) fun _ => .pure _ _ (.inr rfl)) fun a => .pure _ _ (.inr rfl)

theorem slice_end {α : Type} (zero : α) (size : Nat) (dec : α → Dec (α × Option Err)) (old : Option (List α)) : AtEnd (decodeSlice zero size dec old) :=
  ⟨old, some .eof, rfl, .inr rfl⟩
theorem map_end {α β : Type} [DecidableEq α] (dk : Dec (α × Option Err)) (dv : Dec (β × Option Err)) (old : Option (List (α × β))) : AtEnd (decodeMap dk dv old) :=
  ⟨old, some .eof, rfl, .inr rfl⟩

theorem field_end {α β : Type} (tag : Tag) (ht : tag ≠ .variant) (x x' z : α) (dec : Mode → Dec (α × Option Err)) (xs : β) (err : Option Err)
    (rest : Option Err → Dec (β × Option Err)) (hd : AtEnd (dec .elem)) (hr : ∀ err, err = none ∨ err = some .eof → AtEnd (rest err)) :
    AtEnd (decodeField .exported tag x x' z dec xs err rest) := by
  have next : ∀ err, err = none ∨ err = some .eof → ∀ y : α, AtEnd (do let (ys, err) ← rest err; Pure.pure (((y, ys) : α × β), err)) :=
    fun err he y => (hr err he).bind (fun _ => .pure _ _ (.inl rfl)) fun _ => .pure _ _ (.inr rfl)
  cases tag with
  | none => exact hd.bind (fun y => next none (.inl rfl) y) fun y => .pure _ _ (.inr rfl)
  | optional => exact ⟨(x', xs), some .eof, by simp [decodeField, readBool_nil, shortErr], .inr rfl⟩
  | extension => exact hd.bind (fun y => next none (.inl rfl) y) fun y => next (some .eof) (.inr rfl) z
  | variant => exact absurd rfl ht

mutual
theorem decode_end : (t : Ty) → t.Whole → (m : Mode) → m.Plain → t.Decodable m → ∀ old, AtEnd (decodeWith chainDecoder t m old)
  | .basic b, hh, m, hm, hd, old => by
    rcases hm with rfl | rfl | rfl
    · exact basic_end b
    · exact basic_end b
    · exact kind_end b (hd rfl) old
  | .named b, hh, m, hm, hd, old => by
    rcases hm with rfl | rfl | rfl <;> exact kind_end b hd old
  | .unsupported, hh, m, hm, hd, old => hd.elim
  | .ref _ _ _, hh, m, hm, hd, old => hh.elim
  | .bytes, hh, m, hm, hd, old => by
    rcases hm with rfl | rfl | rfl <;> exact ⟨_, some .eof, rfl, .inr rfl⟩
  | .chain c, hh, m, hm, hd, old => .of_eq (decode_chain c m hm old) (chain_end c old)
  | .ptr t, hh, m, hm, hd, old => by
    rcases hm with rfl | rfl | rfl
    · exact (decode_end t hh .value (.inr (.inr rfl)) hd _).bind (fun _ => .pure _ _ (.inl rfl)) fun _ => .pure _ _ (.inr rfl)
    · exact (decode_end t hh .decode (.inl rfl) hd _).bind (fun _ => .pure _ _ (.inl rfl)) fun _ => .pure _ _ (.inr rfl)
    · exact (decode_end t hh .value (.inr (.inr rfl)) hd _).bind (fun _ => .pure _ _ (.inl rfl)) fun _ => .pure _ _ (.inr rfl)
  | .slice t, hh, m, hm, hd, old => by
    rcases hm with rfl | rfl | rfl <;> exact slice_end _ _ _ _
  | .array n t, hh, m, hm, hd, old => by
    have := decEach_end _ (decode_end t hh .elem (.inr (.inl rfl)) hd) old
    rcases hm with rfl | rfl | rfl <;> exact this
  | .map k e, hh, m, hm, hd, old => by
    rcases hm with rfl | rfl | rfl <;> exact map_end _ _ _
  | .struct fs, hh, m, hm, hd, old => by
    have := decodeFields_end fs hh hd none (.inl rfl) old
    rcases hm with rfl | rfl | rfl <;> exact this
theorem decodeFields_end : (fs : Fields) → fs.Whole → fs.Decodable → (err : Option Err) → err = none ∨ err = some .eof → ∀ old, AtEnd (decodeFields chainDecoder fs err old)
  | .nil, _, _, _, he, old => .pure _ _ he
  | .cons vis tag t fs, hh, hd, err, he, old => by
    obtain ⟨rfl, ht, h1, h2⟩ := hd
    exact field_end tag ht old.1 (t.alloc old.1) t.zero (fun mode => decodeWith chainDecoder t mode (t.alloc old.1)) old.2 err (fun err => decodeFields chainDecoder fs err old.2)
      (decode_end t hh.1 .elem (.inr (.inl rfl)) h1 _) fun err he => decodeFields_end fs hh.2 h2 err he _
end

/-- What the fields before it left in `err` does not matter to a field at the end of the input. -/
theorem pending_end (fs : Fields) (h0 : fs ≠ .nil) (hd : fs.Decodable) (err : Option Err) (xs : fs.Val) :
    (decodeFields chainDecoder fs err xs).run [] = (decodeFields chainDecoder fs none xs).run [] := by
  cases fs with
  | nil => exact absurd rfl h0
  | cons vis tag t fs =>
    obtain ⟨x, xs⟩ : t.Val × fs.Val := xs
    obtain ⟨rfl, ht, -, -⟩ := hd
    cases tag with
    | variant => exact absurd rfl ht
    | _ => rfl

/-- At the end of the input an extension field has its zero value, and the fields behind it are decoded as if it were not there. (Types without content, such as [0]int and
struct{}, are decoded from no input and keep their value.) -/
theorem C43_extension_end_partial (t : Ty) (hh : t.Whole) (ht : t.Decodable .elem) (fs : Fields) (hf : fs ≠ .nil) (hfd : fs.Decodable) (x : t.Val) (xs ys : fs.Val) (e : Option Err)
    (hs : (decode (.struct fs) xs).run [] = .ok (ys, e) []) :
    ∃ y, (decode (withField .extension t fs) ((x, xs) : t.Val × fs.Val)).run [] = .ok (((y, ys) : t.Val × fs.Val), e) [] ∧
      (y = t.zero ∨ (fieldDecode t x).run [] = .ok (y, none) []) := by
  obtain ⟨y, e', h1, h2⟩ := decode_end t hh .elem (.inr (.inl rfl)) ht (t.alloc x)
  rcases h2 with rfl | rfl
  · refine ⟨y, ?_, .inr ?_⟩
    · exact extension_ok (x := x) (x' := t.alloc x) (z := t.zero) (dec := fun mode => decodeWith chainDecoder t mode (t.alloc x)) (rest := fun err => decodeFields chainDecoder fs err xs) h1 hs
    · rw [elem_eq, fieldDecode_alloc] at h1; exact h1
  · exact ⟨t.zero, extension_eof (x := x) (x' := t.alloc x) (z := t.zero) (dec := fun mode => decodeWith chainDecoder t mode (t.alloc x)) (rest := fun err => decodeFields chainDecoder fs err xs) h1
      ((pending_end fs hf hfd _ xs).trans hs), .inl rfl⟩

/-- But if it is the last field, Decode returns io.EOF: the error of the field is dropped and stays in the variable that is returned behind the loop. So does every struct that ends
with extensions all of which are absent. -/
theorem C43_extension_last_violated (t : Ty) (x : t.Val) (h : ∃ y, (fieldDecode t x).run [] = .ok (y, some .eof) []) :
    (decode (withField .extension t .nil) ((x, ()) : t.Val × Unit)).run [] = .ok (((t.zero, ()) : t.Val × Unit), some .eof) [] := by
  obtain ⟨y, h⟩ := h
  exact extension_eof (x := x) (x' := t.alloc x) (z := t.zero) (dec := fun mode => decodeWith chainDecoder t mode (t.alloc x)) (rest := fun err => decodeFields chainDecoder .nil err ())
    (fieldDecode_run h) rfl

/-- A type is read from no input only if it has no content: every other one runs into the end of the input. -/
theorem C43_extension_content (t : Ty) (hh : t.Whole) (ht : t.Decodable .elem) (x : t.Val) :
    (∃ y, (fieldDecode t x).run [] = .ok (y, none) []) ∨ ∃ y, (fieldDecode t x).run [] = .ok (y, some .eof) [] := by
  obtain ⟨y, e, h1, h2⟩ := decode_end t hh .elem (.inr (.inl rfl)) ht (t.alloc x)
  rw [elem_eq, fieldDecode_alloc] at h1
  rcases h2 with rfl | rfl
  · exact .inl ⟨y, h1⟩
  · exact .inr ⟨y, h1⟩

/-- struct { A string `eosio:"extension"`; B uint16 `eosio:"extension"` } and the same with a last field of type struct{} -/
example : (decode (withField .extension (.basic .string) (.cons .exported .extension (.basic .u16) .nil)) ((asc "x", 5, ()) : Bytes × UInt16 × Unit)).run [] =
      .ok ((([], 0, ()) : Bytes × UInt16 × Unit), some .eof) [] ∧
    (decode (withField .extension (.basic .string) (.cons .exported .none (.struct .nil) .nil)) ((asc "x", (), ()) : Bytes × Unit × Unit)).run [] =
      .ok ((([], (), ()) : Bytes × Unit × Unit), none) [] := by decide +kernel

/-! ### Variants -/

/-- The members of a struct value, with their types. -/
def Fields.members : (fs : Fields) → fs.Val → List (Σ t : Ty, t.Val)
  | .nil, _ => []
  | .cons _ _ t fs, v => ⟨t, (show t.Val × fs.Val from v).1⟩ :: fs.members (show t.Val × fs.Val from v).2

theorem members_length : (fs : Fields) → (v : fs.Val) → (fs.members v).length = fs.count
  | .nil, _ => rfl
  | .cons _ _ _ fs, v => congrArg (· + 1) (members_length fs _)

theorem isNil_zero (t : Ty) (x : t.Val) (h : t.isNil x = some true) : x = t.zero := by
  cases t with
  | ptr t => cases x with
    | none => rfl
    | some x => cases h
  | slice t => cases x with
    | none => rfl
    | some x => cases h
  | map k e => cases x with
    | none => rfl
    | some x => cases h
  | bytes => cases x with
    | none => rfl
    | some x => cases h
  | chain c =>
    cases c <;> first | (cases x <;> first | rfl | cases h; done) | cases h
  | _ => cases h

def predIdx : Option Nat → Option Nat
  | some (n + 1) => some n
  | _ => none

theorem clear_eq (vis : Vis) (tag : Tag) (t : Ty) (fs : Fields) (idx : Option Nat) (x : t.Val) (xs : fs.Val) :
    (show Option (t.Val × fs.Val) from (Fields.cons vis tag t fs).clear idx ((x, xs) : t.Val × fs.Val)) =
      (match (if idx = some 0 then some x else match t.isNil x with
        | none => none
        | some true => some x
        | some false => if vis = .exported then some t.zero else none), fs.clear (predIdx idx) xs with
      | some x, some xs => some (x, xs)
      | _, _ => none) := by
  match idx with
  | none => rfl
  | some 0 => rfl
  | some (n + 1) => rfl

theorem clear_cons (vis : Vis) (tag : Tag) (t : Ty) (fs : Fields) (idx : Option Nat) (x y : t.Val) (xs ys : fs.Val)
    (h : (Fields.cons vis tag t fs).clear idx ((x, xs) : t.Val × fs.Val) = some ((y, ys) : t.Val × fs.Val)) :
    (y = if idx = some 0 then x else t.zero) ∧ fs.clear (predIdx idx) xs = some ys := by
  have h' := (clear_eq vis tag t fs idx x xs).symm.trans h
  cases hr : fs.clear (predIdx idx) xs with
  | none => rw [hr] at h'; split at h' <;> simp_all
  | some zs =>
    rw [hr] at h'
    by_cases hi : idx = some 0
    · simp only [if_pos hi, Option.some.injEq, Prod.mk.injEq] at h' ⊢
      exact ⟨h'.1.symm, h'.2⟩
    · simp only [if_neg hi] at h' ⊢
      cases hn : t.isNil x with
      | none => rw [hn] at h'; simp at h'
      | some b =>
        rw [hn] at h'
        cases b with
        | true =>
          simp only [Option.some.injEq, Prod.mk.injEq] at h' ⊢
          exact ⟨h'.1.symm.trans (isNil_zero t x hn), h'.2⟩
        | false =>
          by_cases hv : vis = .exported
          · simp only [if_pos hv, Option.some.injEq, Prod.mk.injEq] at h' ⊢
            exact ⟨h'.1.symm, h'.2⟩
          · simp [if_neg hv] at h'

/-- All members but number `idx` are zero in the result. -/
theorem clear_zero : (fs : Fields) → (idx : Option Nat) → (v w : fs.Val) → fs.clear idx v = some w →
    ∀ j m, some j ≠ idx → (fs.members w)[j]? = some m → m.2 = m.1.zero
  | .nil, _, _, _, _ => fun j m _ h => by cases h
  | .cons vis tag t fs, idx, (x, xs), (y, ys), hc => by
    intro j m hj hm
    obtain ⟨h1, h2⟩ := clear_cons vis tag t fs idx x y xs ys hc
    cases j with
    | zero =>
      have : (⟨t, y⟩ : Σ t : Ty, t.Val) = m := Option.some.inj hm
      subst this
      rw [if_neg (fun h => hj h.symm)] at h1
      exact h1
    | succ j =>
      refine clear_zero fs (predIdx idx) xs ys h2 j m ?_ hm
      intro h
      match idx, h, hj with
      | none, h, _ => cases h
      | some 0, h, _ => cases h
      | some (n + 1), h, hj => cases h; exact hj rfl

theorem member_ok (t : Ty) (x y : t.Val) (fin : Err) (bs r : Bytes) (h : (decodeWith chainDecoder t .member x).runE fin bs = .ok (y, none) r) :
    ∃ (u : Ty) (z : u.Val), (⟨t, y⟩ : Σ t : Ty, t.Val) = ⟨.ptr u, (some z : Option u.Val)⟩ ∧ (decode u u.zero).runE fin bs = .ok (z, none) r := by
  cases t with
  | ptr t =>
    obtain ⟨⟨z, e⟩, r', h1, h2⟩ := Dec.runE_bind_ok (show (decodeWith chainDecoder t .decode t.zero >>= _).runE fin bs = _ from h)
    cases e <;> cases h2
    exact ⟨t, z, rfl, h1⟩
  | _ => cases h

theorem decodeMember_ok : (fs : Fields) → (n : Nat) → (v w : fs.Val) → (fin : Err) → (bs r : Bytes) → (decodeMember chainDecoder fs n v).runE fin bs = .ok (w, none) r →
    (∃ (u : Ty) (z : u.Val), (fs.members w)[n]? = some ⟨.ptr u, (some z : Option u.Val)⟩ ∧ (decode u u.zero).runE fin bs = .ok (z, none) r) ∧
    ∀ j, j ≠ n → (fs.members w)[j]? = (fs.members v)[j]?
  | .nil, _, _, _, _, _, _, h => by cases h
  | .cons vis tag t fs, 0, (x, xs), (y, ys), fin, bs, r, h => by
    obtain ⟨⟨z, e⟩, r', h1, h2⟩ := Dec.runE_bind_ok (show (decodeWith chainDecoder t .member x >>= _).runE fin bs = _ from h)
    cases e with
    | some e => cases h2
    | none =>
      replace h2 : (if vis = .exported then pure (((z, xs) : t.Val × fs.Val), none) else .panic "reflect: using value obtained using unexported field" : Dec ((t.Val × fs.Val) × Option Err)).runE fin r' = .ok (((y, ys) : t.Val × fs.Val), none) r := h2
      by_cases hv : vis = .exported
      · rw [if_pos hv] at h2
        cases h2
        obtain ⟨u, z, h3, h4⟩ := member_ok t x y fin bs r h1
        refine ⟨⟨u, z, congrArg some h3, h4⟩, fun j hj => ?_⟩
        cases j with
        | zero => exact absurd rfl hj
        | succ j => rfl
      · rw [if_neg hv] at h2
        cases h2
  | .cons vis tag t fs, n + 1, (x, xs), (y, ys), fin, bs, r, h => by
    obtain ⟨⟨z, e⟩, r', h1, h2⟩ := Dec.runE_bind_ok (show (decodeMember chainDecoder fs n xs >>= _).runE fin bs = _ from h)
    cases h2
    obtain ⟨⟨u, z, h3, h4⟩, h5⟩ := decodeMember_ok fs n xs ys fin bs r h1
    refine ⟨⟨u, z, h3, h4⟩, fun j hj => ?_⟩
    cases j with
    | zero => rfl
    | succ j => exact h5 j (fun h => hj (by rw [h]))

/-- A decoded variant: the member selected by the index byte points to the decoded value, all others are nil. -/
theorem C43_variant_selected (fs : Fields) (old v : fs.Val) (fin : Err) (b : UInt8) (bs r : Bytes)
    (h : (decodeVariant (.struct fs) old).runE fin (b :: bs) = .ok (v, none) r) :
    (∃ (t : Ty) (x : t.Val), (fs.members v)[b.toNat]? = some ⟨.ptr t, (some x : Option t.Val)⟩ ∧ (decode t t.zero).runE fin bs = .ok (x, none) r) ∧
    ∀ j m, j ≠ b.toNat → (fs.members v)[j]? = some m → m.2 = m.1.zero := by
  replace h : (if b.toNat ≥ fs.count then pure (old, some errVariantIndex) else match fs.clear (some b.toNat) old with
    | none => .panic "reflect: call of reflect.Value.IsNil on a value that cannot be nil, or Set on an unexported field"
    | some cleared => decodeMember chainDecoder fs b.toNat cleared : Dec (fs.Val × Option Err)).runE fin bs = .ok (v, none) r := h
  by_cases hc : b.toNat ≥ fs.count
  · rw [if_pos hc] at h
    cases h
  · rw [if_neg hc] at h
    cases hl : fs.clear (some b.toNat) old with
    | none => rw [hl] at h; cases h
    | some w =>
      rw [hl] at h
      obtain ⟨h1, h2⟩ := decodeMember_ok fs _ w v fin bs r h
      exact ⟨h1, fun j m hj hm => clear_zero fs _ old w hl j m (fun h => hj (Option.some.inj h)) (by rw [← h2 j hj]; exact hm)⟩

/-- An index that is not that of a member is an error, and nothing is changed. -/
theorem C43_variant_range (fs : Fields) (old : fs.Val) (fin : Err) (b : UInt8) (bs : Bytes) (hb : (fs.members old).length ≤ b.toNat) :
    (decodeVariant (.struct fs) old).runE fin (b :: bs) = .ok (old, some errVariantIndex) bs := by
  rw [members_length] at hb
  show (if b.toNat ≥ fs.count then pure (old, some errVariantIndex) else match fs.clear (some b.toNat) old with
    | none => .panic "reflect: call of reflect.Value.IsNil on a value that cannot be nil, or Set on an unexported field"
    | some cleared => decodeMember chainDecoder fs b.toNat cleared : Dec (fs.Val × Option Err)).runE fin bs = _
  rw [if_pos hb]
  rfl

/-- Members of a variant type: exported pointers. -/
def Fields.Pointers : Fields → Prop
  | .nil => True
  | .cons vis _ t fs => vis = .exported ∧ (∃ u, t = .ptr u) ∧ fs.Pointers

theorem isNil_ptr (t u : Ty) (h : t = .ptr u) (x : t.Val) : ∃ b, t.isNil x = some b := by
  subst h; exact ⟨_, rfl⟩

theorem clear_some : (fs : Fields) → fs.Pointers → (idx : Option Nat) → (v : fs.Val) → ∃ w, fs.clear idx v = some w
  | .nil, _, _, _ => ⟨(), rfl⟩
  | .cons vis tag t fs, hp, idx, (x, xs) => by
    obtain ⟨rfl, ⟨u, hu⟩, hp⟩ := hp
    obtain ⟨ys, hy⟩ := clear_some fs hp (predIdx idx) xs
    have := clear_eq .exported tag t fs idx x xs
    rw [hy] at this
    by_cases hi : idx = some 0
    · rw [if_pos hi] at this
      exact ⟨_, this⟩
    · rw [if_neg hi] at this
      obtain ⟨b, hb⟩ := isNil_ptr t u hu x
      rw [hb] at this
      cases b
      · exact ⟨_, this⟩
      · exact ⟨_, this⟩

theorem decodeMember_some : (fs : Fields) → fs.Pointers → (n : Nat) → (v : fs.Val) → (t : Ty) → (y : (Ty.ptr t).Val) → (fs.members v)[n]? = some ⟨.ptr t, y⟩ →
    (x : t.Val) → (fin : Err) → (bs r : Bytes) → (decode t t.zero).runE fin bs = .ok (x, none) r → ∃ w, (decodeMember chainDecoder fs n v).runE fin bs = .ok (w, none) r
  | .nil, _, _, _, _, _, h, _, _, _, _, _ => by cases h
  | .cons vis tag t fs, hp, 0, (x, xs), t', y, h, z, fin, bs, r, hd => by
    obtain ⟨rfl, ⟨u, rfl⟩, hp⟩ := hp
    obtain ⟨h, -⟩ := Sigma.mk.inj (Option.some.inj h)
    cases h
    refine ⟨(some z, xs), ?_⟩
    show ((decodeWith chainDecoder t' .decode t'.zero >>= _) >>= _ : Dec _).runE fin bs = _
    rw [Dec.bind_assoc', Dec.runE_bind, show (decodeWith chainDecoder t' .decode t'.zero).runE fin bs = _ from hd]
    rfl
  | .cons vis tag t fs, hp, n + 1, (x, xs), t', y, h, z, fin, bs, r, hd => by
    obtain ⟨ys, h1⟩ := decodeMember_some fs hp.2.2 n xs t' y h z fin bs r hd
    refine ⟨(x, ys), ?_⟩
    show ((decodeMember chainDecoder fs n xs >>= _) : Dec _).runE fin bs = _
    rw [Dec.runE_bind, h1]
    rfl

/-- The types of the members. -/
def Fields.types : Fields → List Ty
  | .nil => []
  | .cons _ _ t fs => t :: fs.types

theorem members_types : (fs : Fields) → (v : fs.Val) → (fs.members v).map Sigma.fst = fs.types
  | .nil, _ => rfl
  | .cons _ _ t fs, v => congrArg (t :: ·) (members_types fs _)

/-- Every member of a variant type can be decoded. -/
theorem C43_variant_decodes (fs : Fields) (hp : fs.Pointers) (old : fs.Val) (fin : Err) (b : UInt8) (bs r : Bytes) (t : Ty) (ht : fs.types[b.toNat]? = some (.ptr t)) (x : t.Val)
    (h : (decode t t.zero).runE fin bs = .ok (x, none) r) : ∃ v, (decodeVariant (.struct fs) old).runE fin (b :: bs) = .ok (v, none) r := by
  obtain ⟨w, hw⟩ := clear_some fs hp (some b.toNat) old
  have hm : ∃ y, (fs.members w)[b.toNat]? = some ⟨.ptr t, y⟩ := by
    rw [← members_types fs w, List.getElem?_map] at ht
    cases hm : (fs.members w)[b.toNat]? with
    | none => rw [hm] at ht; cases ht
    | some m =>
      rw [hm] at ht
      obtain ⟨t', y⟩ := m
      cases ht
      exact ⟨y, rfl⟩
  obtain ⟨y, hm⟩ := hm
  obtain ⟨v, hv⟩ := decodeMember_some fs hp _ w t y hm x fin bs r h
  refine ⟨v, ?_⟩
  show (if b.toNat ≥ fs.count then pure (old, some errVariantIndex) else match fs.clear (some b.toNat) old with
    | none => .panic "reflect: call of reflect.Value.IsNil on a value that cannot be nil, or Set on an unexported field"
    | some cleared => decodeMember chainDecoder fs b.toNat cleared : Dec (fs.Val × Option Err)).runE fin bs = _
  have hc : ¬ b.toNat ≥ fs.count := by
    rw [← members_length fs w]
    exact Nat.not_le.2 (List.getElem?_eq_some_iff.1 hm).1
  rw [if_neg hc, hw]
  exact hv

/-- A variant field is decoded by DecodeVariant. -/
theorem C43_variant_field (ms fs : Fields) (x y : ms.Val) (xs ys : fs.Val) (fin : Err) (bs r r' : Bytes) (e : Option Err)
    (h : (decodeVariant (.struct ms) x).runE fin bs = .ok (y, none) r) (hs : (decode (.struct fs) xs).runE fin r = .ok (ys, e) r') :
    (decode (withField .variant (.struct ms) fs) ((x, xs) : ms.Val × fs.Val)).runE fin bs = .ok (((y, ys) : ms.Val × fs.Val), e) r' := by
  cases bs with
  | nil => cases h
  | cons b bs =>
    exact variant_ok (x := x) (x' := x) (z := (Ty.struct ms).zero) (dec := fun mode => decodeWith chainDecoder (.struct ms) mode x)
      (rest := fun err => decodeFields chainDecoder fs err xs) h hs

theorem runE_of_ok {α β : Type} {p : Dec α} {f : α → Dec β} {fin : Err} {bs r : Bytes} {a : α} (h : p.runE fin bs = .ok a r) :
    (p >>= f).runE fin bs = (f a).runE fin r := by
  rw [Dec.runE_bind, h]
  rfl

/-- So is a pointer to a variant struct, which is allocated if it is nil. -/
theorem C43_variant_pointer (ms fs : Fields) (x : Option ms.Val) (y : ms.Val) (xs ys : fs.Val) (fin : Err) (bs r r' : Bytes) (e : Option Err)
    (h : (decodeVariant (.struct ms) (x.getD ms.zero)).runE fin bs = .ok (y, none) r) (hs : (decode (.struct fs) xs).runE fin r = .ok (ys, e) r') :
    (decode (withField .variant (.ptr (.struct ms)) fs) ((x, xs) : Option ms.Val × fs.Val)).runE fin bs = .ok (((some y, ys) : Option ms.Val × fs.Val), e) r' := by
  cases bs with
  | nil => cases h
  | cons b bs =>
    refine variant_ok (α := Option ms.Val) (x := x) (x' := some (x.getD ms.zero)) (z := none) (dec := fun mode => decodeWith chainDecoder (.ptr (.struct ms)) mode (some (x.getD ms.zero) : Option ms.Val))
      (rest := fun err => decodeFields chainDecoder fs err xs) ?_ hs
    exact (runE_of_ok (α := ms.Val × Option Err) (p := decodeWith chainDecoder (.struct ms) (.variant b.toNat) (x.getD ms.zero)) h).trans rfl

/-- struct { A *uint8; B *uint16 } -/
def sampleVariant : Fields := .cons .exported .none (.ptr (.basic .u8)) (.cons .exported .none (.ptr (.basic .u16)) .nil)
example : sampleVariant.Pointers := ⟨rfl, ⟨_, rfl⟩, rfl, ⟨_, rfl⟩, trivial⟩
example : (decodeVariant (.struct sampleVariant) ((some 7, none, ()) : Option UInt8 × Option UInt16 × Unit)).run [1, 2, 3] = .ok (((none, some 0x0302, ()) : Option UInt8 × Option UInt16 × Unit), none) [] := by
  decide +kernel
example : (decodeVariant (.struct sampleVariant) ((some 7, none, ()) : Option UInt8 × Option UInt16 × Unit)).run [2, 2, 3] = .ok (((some 7, none, ()) : Option UInt8 × Option UInt16 × Unit), some errVariantIndex) [2, 3] := by
  decide +kernel


/-- struct { N *uint8 `eosio:"optional"`; E string `eosio:"extension"` } -/
def sampleFields : Ty := withField .optional (.ptr (.basic .u8)) (.cons .exported .extension (.basic .string) .nil)
example : (decode sampleFields ((some 7, asc "x", ()) : Option UInt8 × Bytes × Unit)).run [0] = .ok (((none, [], ()) : Option UInt8 × Bytes × Unit), some .eof) [] := by decide +kernel
example : (decode sampleFields ((some 7, asc "x", ()) : Option UInt8 × Bytes × Unit)).run [1, 2, 1, 97, 9] = .ok (((some 2, asc "a", ()) : Option UInt8 × Bytes × Unit), none) [9] := by decide +kernel

/-- struct { A, B uint8 } -/
def sampleTwo : Fields := .cons .exported .none (.basic .u8) (.cons .exported .none (.basic .u8) .nil)

/-! ## C67: truncated extension fields -/

/-- Input that ends inside an extension field is taken for input without that field: after the length of a string, or between the fields of a struct. The value and the error
are those of the empty input; if a field without content follows, there is no error. -/
theorem C67_violated :
    ((decode (withField .extension (.basic .string) .nil) ((asc "x", ()) : Bytes × Unit)).run [5] = .ok ((([], ()) : Bytes × Unit), some .eof) [] ∧
      (decode (withField .extension (.basic .string) .nil) ((asc "x", ()) : Bytes × Unit)).run [] = .ok ((([], ()) : Bytes × Unit), some .eof) []) ∧
    ((decode (withField .extension (.struct sampleTwo) .nil) (((1, 2, ()), ()) : (UInt8 × UInt8 × Unit) × Unit)).run [9] = .ok ((((0, 0, ()), ()) : (UInt8 × UInt8 × Unit) × Unit), some .eof) [] ∧
      (decode (withField .extension (.struct sampleTwo) .nil) (((1, 2, ()), ()) : (UInt8 × UInt8 × Unit) × Unit)).run [] = .ok ((((0, 0, ()), ()) : (UInt8 × UInt8 × Unit) × Unit), some .eof) []) ∧
    (decode (withField .extension (.basic .string) (.cons .exported .none (.struct .nil) .nil)) ((asc "x", (), ()) : Bytes × Unit × Unit)).run [5] =
      .ok ((([], (), ()) : Bytes × Unit × Unit), none) [] := by
  decide +kernel

/-- Errors other than io.EOF are reported. -/
theorem C67_other_errors_partial (t : Ty) (fs : Fields) (x y : t.Val) (xs : fs.Val) (fin : Err) (bs r : Bytes) (e : Err) (he : e ≠ .eof)
    (h : (fieldDecode t x).runE fin bs = .ok (y, some e) r) :
    (decode (withField .extension t fs) ((x, xs) : t.Val × fs.Val)).runE fin bs = .ok (((y, xs) : t.Val × fs.Val), some e) r :=
  extension_err (x := x) (x' := t.alloc x) (z := t.zero) (dec := fun mode => decodeWith chainDecoder t mode (t.alloc x)) (rest := fun err => decodeFields chainDecoder fs err xs) he (fieldDecode_run h)

/-- The size on the wire of the types of fixed size. -/
def Basic.fixed : Basic → Option Nat
  | .bool | .u8 | .i8 => some 1
  | .u16 | .i16 => some 2
  | .u32 | .i32 | .f32 => some 4
  | .u64 | .i64 | .f64 => some 8
  | _ => none

theorem basic_short (b : Basic) (n : Nat) (hb : b.fixed = some n) (bs : Bytes) (h0 : bs ≠ []) (hn : bs.length < n) :
    ∃ v, b.read.runE .eof bs = .ok (v, some .unexpectedEOF) [] := by
  have hl : 0 < bs.length := List.length_pos_iff.2 h0
  have hs : shortErr .eof bs.length = .unexpectedEOF := by unfold shortErr; rw [if_pos]; exact ⟨by omega, rfl⟩
  cases b <;> simp only [Basic.fixed, Option.some.injEq, reduceCtorEq] at hb <;> subst hb <;> first
    | omega
    | exact ⟨_, (Dec.runE_read_short .eof 2 _ bs hn).trans (by rw [hs]; rfl)⟩
    | exact ⟨_, (Dec.runE_read_short .eof 4 _ bs hn).trans (by rw [hs]; rfl)⟩
    | exact ⟨_, (Dec.runE_read_short .eof 8 _ bs hn).trans (by rw [hs]; rfl)⟩

/-- A field of fixed size that is present but cut short is reported. -/
theorem C67_fixed_partial (b : Basic) (n : Nat) (hb : b.fixed = some n) (fs : Fields) (x : (Ty.basic b).Val) (xs : fs.Val) (bs : Bytes) (h0 : bs ≠ []) (hn : bs.length < n) :
    ∃ v, (decode (withField .extension (.basic b) fs) ((x, xs) : (Ty.basic b).Val × fs.Val)).run bs = .ok (v, some .unexpectedEOF) [] := by
  obtain ⟨v, h⟩ := basic_short b n hb bs h0 hn
  have h' : ∃ y, (fieldDecode (.basic b) x).runE .eof bs = .ok (y, some .unexpectedEOF) [] := by
    refine ⟨v, ?_⟩
    have hd : fieldDecode (.basic b) x = b.read := by cases b <;> rfl
    exact (congrArg (fun p : Dec (b.Val × Option Err) => p.runE .eof bs) hd).trans h
  obtain ⟨y, h'⟩ := h'
  exact ⟨_, C67_other_errors_partial (.basic b) fs x y xs .eof bs [] _ (fun h => nomatch h) h'⟩

end Verif
