import Verif.Props.Fields
/-! C61: encoders and decoders with a custom function (chain/encoding.go:135-153). -/
namespace Verif

/-- `chain.NewCustomEncoder(w, fn).Encode(v)` -/
def customEncode (fn : EncFn) (t : Ty) (v : t.Val) : Enc (Option Err) := encodeWith (customEncoder fn) t v
/-- `chain.NewCustomDecoder(r, fn).Decode(&x)` -/
def customDecode (fn : DecFn) (t : Ty) (old : t.Val) : Dec (t.Val × Option Err) := decodeWith (customDecoder fn) t .decode old

/-! ### The function is asked first -/

theorem via_first (fn : EncFn) (t : Ty) (v : t.Val) (k : Enc (Option Err)) (done : Bool) (err : Option Err) (out : Bytes) (h : (fn t v).run = .ok (done, err) out)
    (hd : done = true ∨ err ≠ none) : (viaEncFn (customEncoder fn) t v k).run = .ok err out := by
  unfold viaEncFn customEncoder
  rw [Enc.run_bind, Enc.run_bind, h]
  rcases hd with rfl | hd
  · simp [EOut.bind]
  · cases err with
    | none => exact absurd rfl hd
    | some e => cases done <;> simp [EOut.bind]

theorem encode_via (fn : EncFn) (t : Ty) (v : t.Val) : ∃ k, encodeWith fn t v = viaEncFn fn t v k := by
  cases t with
  | ptr u => cases u <;> cases v <;> exact ⟨_, rfl⟩
  | _ => exact ⟨_, rfl⟩

/-- A value the function has written, or refused with an error, is not looked at any further. -/
theorem C61_encode_first (fn : EncFn) (t : Ty) (v : t.Val) (done : Bool) (err : Option Err) (out : Bytes) (h : (fn t v).run = .ok (done, err) out)
    (hd : done = true ∨ err ≠ none) : (customEncode fn t v).run = .ok err out := by
  obtain ⟨k, hk⟩ := encode_via (customEncoder fn) t v
  unfold customEncode
  rw [hk]
  exact via_first fn t v k done err out h hd

/-- decode.go:33-36 -/
theorem decode_via (fn : DecFn) (t : Ty) (old : t.Val) : ∃ fast : t.Val → Dec (t.Val × Option Err), decodeWith fn t .decode old = (do
    let (x, done, err) ← fn t old
    if done || err.isSome then pure (x, err) else fast x) := by
  cases t with
  | basic b => exact ⟨fun _ => b.read, rfl⟩
  | unsupported => exact ⟨fun old => pure (old, some errUnsupportedType), rfl⟩
  | ref => exact ⟨fun _ => .diverge, rfl⟩
  | ptr u => exact ⟨fun old => (do
      let (x, err) ← decodeWith fn u .value (Option.getD (α := u.Val) old u.zero)
      pure ((some x : Option u.Val), err) : Dec (Option u.Val × Option Err)), rfl⟩
  | _ => exact ⟨_, rfl⟩

theorem C61_decode_first (fn : DecFn) (t : Ty) (old v : t.Val) (fin : Err) (bs r : Bytes) (done : Bool) (err : Option Err)
    (h : (fn t old).runE fin bs = .ok (v, done, err) r) (hd : done = true ∨ err ≠ none) : (customDecode fn t old).runE fin bs = .ok (v, err) r := by
  obtain ⟨fast, hf⟩ := decode_via (customDecoder fn) t old
  unfold customDecode
  rw [hf]
  unfold customDecoder
  rw [Dec.bind_assoc', Dec.runE_bind, h]
  rcases hd with rfl | hd
  · simp [Out.bind]
  · cases err with
    | none => exact absurd rfl hd
    | some e => cases done <;> simp [Out.bind]

/-! ### A function that declines everything changes nothing -/

theorem C61_encode_declined (fn : EncFn) (h : ∀ t v, fn t v = pure (false, none)) (t : Ty) (v : t.Val) : customEncode fn t v = encode t v := by
  have : customEncoder fn = chainEncoder := by
    funext t v
    unfold customEncoder
    rw [h]
    rfl
  unfold customEncode encode
  rw [this]

theorem C61_decode_declined (fn : DecFn) (h : ∀ t v, fn t v = pure (v, false, none)) (t : Ty) (old : t.Val) : customDecode fn t old = decode t old := by
  have : customDecoder fn = chainDecoder := by
    funext t v
    unfold customDecoder
    rw [h]
    rfl
  unfold customDecode decode
  rw [this]

/-! ### Chain types only when it declines -/

/-- A value of a chain type that the function declines is written by its MarshalABI. (ExtendedAsset is encoded field by field, so the function is asked
for the fields.) -/
theorem C61_encode_chain (fn : EncFn) (c : ChainTy) (hc : c ≠ .extendedAsset) (v : c.Val) (h : fn (.chain c) v = pure (false, none)) :
    (customEncode fn (.chain c) v).run = (c.marshal v).run := by
  show (viaEncFn (customEncoder fn) (.chain c) v _).run = _
  unfold viaEncFn customEncoder
  rw [h]
  cases c <;> first | exact absurd rfl hc | skip
  all_goals
    show ((ChainTy.marshal _ v >>= fun err => pure (true, err)) >>= _ : Enc _).run = _
    rw [Enc.bind_assoc', Enc.run_bind]
    cases (ChainTy.marshal _ v).run <;> simp [EOut.bind]

theorem C61_decode_chain (fn : DecFn) (c : ChainTy) (old : c.Val) (h : fn (.chain c) old = pure (old, false, none)) :
    customDecode fn (.chain c) old = c.unmarshal old := by
  refine Eq.trans ?_ (decode_chain c .decode (.inl rfl) old)
  show viaDecFn (customDecoder fn) (.chain c) .decode old c.unmarshal c.unmarshal = viaDecFn chainDecoder (.chain c) .decode old c.unmarshal c.unmarshal
  unfold viaDecFn customDecoder
  rw [h]
  rfl

/-! ### Parts of values the function declines -/

theorem via_declined (fn : EncFn) (t : Ty) (ht : ∀ c, t ≠ .chain c) (v : t.Val) (k : Enc (Option Err)) (h : fn t v = pure (false, none)) :
    viaEncFn (customEncoder fn) t v k = k := by
  unfold viaEncFn customEncoder
  rw [h]
  cases t <;> first | rfl | exact absurd rfl (ht _)

theorem encEach_error {α : Type} (enc : α → Enc (Option Err)) (k : Enc (Option Err)) (w : α → Bytes) (pre post : List α) (x : α) (e : Err) (o : Bytes)
    (h : ∀ y ∈ pre, (enc y).Writes (w y)) (hx : (enc x).run = .ok (some e) o) : (encEach enc k (pre ++ x :: post)).run = .ok (some e) (pre.flatMap w ++ o) := by
  induction pre with
  | nil =>
    show (enc x >>= _).run = _
    rw [Enc.run_bind, hx]
    simp [EOut.bind]
  | cons y pre ih =>
    show (enc y >>= _).run = _
    rw [Enc.run_bind, show (enc y).run = _ from h y (by simp)]
    show EOut.prepend (w y) (encEach enc k (pre ++ x :: post)).run = _
    rw [ih fun z hz => h z (by simp [hz])]
    simp [EOut.prepend]

/-- The function is asked for every element of a slice. -/
theorem C61_encode_slice (fn : EncFn) (t : Ty) (xs : List t.Val) (h : fn (.slice t) (some xs : Option (List t.Val)) = pure (false, none)) (hl : xs.length < 2 ^ 28)
    (w : t.Val → Bytes) (hw : ∀ x ∈ xs, (customEncode fn t x).Writes (w x)) :
    ∃ n, MinLeb n xs.length ∧ (customEncode fn (.slice t) (some xs : Option (List t.Val))).Writes (n ++ xs.flatMap w) := by
  refine ⟨varuintBytes xs.length, varuintBytes_minLeb _ hl, ?_⟩
  refine .of_eq (via_declined fn (.slice t) (fun _ h => nomatch h) (some xs : Option (List t.Val)) _ h) ?_
  refine Enc.Writes.bind (writeVaruint_writes _ hl) ?_
  have := encEach_writes (encodeWith (customEncoder fn) t) (pure none) w [] .pure xs hw
  rwa [List.append_nil] at this

/-- An error from an element stops the encoding. -/
theorem C61_encode_slice_error (fn : EncFn) (t : Ty) (pre post : List t.Val) (x : t.Val) (h : fn (.slice t) (some (pre ++ x :: post) : Option (List t.Val)) = pure (false, none))
    (hl : (pre ++ x :: post).length < 2 ^ 28) (w : t.Val → Bytes) (hw : ∀ y ∈ pre, (customEncode fn t y).Writes (w y)) (e : Err) (o : Bytes)
    (he : (customEncode fn t x).run = .ok (some e) o) :
    ∃ n, MinLeb n (pre ++ x :: post).length ∧ (customEncode fn (.slice t) (some (pre ++ x :: post) : Option (List t.Val))).run = .ok (some e) (n ++ (pre.flatMap w ++ o)) := by
  refine ⟨varuintBytes (pre ++ x :: post).length, varuintBytes_minLeb _ hl, ?_⟩
  refine (congrArg Enc.run (via_declined fn (.slice t) (fun _ h => nomatch h) (some (pre ++ x :: post) : Option (List t.Val)) _ h)).trans ?_
  show (writeVaruint (pre ++ x :: post).length.toUInt64 >>= _ : Enc _).run = _
  rw [Enc.run_bind, show (writeVaruint (pre ++ x :: post).length.toUInt64).run = _ from writeVaruint_writes _ hl]
  show EOut.prepend _ (encEach (encodeWith (customEncoder fn) t) (pure none) (pre ++ x :: post)).run = _
  rw [encEach_error (encodeWith (customEncoder fn) t) (pure none) w pre post x e o hw he]
  rfl

/-- The function is asked for every field of a struct it declines, and an error stops the encoding. -/
theorem C61_encode_field (fn : EncFn) (hd : ∀ fs v, fn (.struct fs) v = pure (false, none)) (t : Ty) (fs : Fields) (x : t.Val) (xs : fs.Val) (a b : Bytes)
    (h : (customEncode fn t x).Writes a) (hs : (customEncode fn (.struct fs) xs).Writes b) :
    (customEncode fn (withField .none t fs) ((x, xs) : t.Val × fs.Val)).Writes (a ++ b) := by
  refine .of_eq (via_declined fn (withField .none t fs) (fun _ h => nomatch h) ((x, xs) : t.Val × fs.Val) _ (hd _ _)) ?_
  refine Enc.Writes.bind (p := encodeWith (customEncoder fn) t x) h ?_
  exact .of_eq (via_declined fn (.struct fs) (fun _ h => nomatch h) xs _ (hd _ _)).symm hs
theorem C61_encode_field_error (fn : EncFn) (hd : ∀ fs v, fn (.struct fs) v = pure (false, none)) (t : Ty) (fs : Fields) (x : t.Val) (xs : fs.Val) (e : Err) (o : Bytes)
    (h : (customEncode fn t x).run = .ok (some e) o) : (customEncode fn (withField .none t fs) ((x, xs) : t.Val × fs.Val)).run = .ok (some e) o := by
  refine (congrArg Enc.run (via_declined fn (withField .none t fs) (fun _ h => nomatch h) ((x, xs) : t.Val × fs.Val) _ (hd _ _))).trans ?_
  show (encodeWith (customEncoder fn) t x >>= _ : Enc _).run = _
  rw [Enc.run_bind, show (encodeWith (customEncoder fn) t x).run = _ from h]
  simp [EOut.bind]

theorem viaDec_declined (fn : DecFn) (t : Ty) (ht : ∀ c, t ≠ .chain c) (old : t.Val) (fast slow : t.Val → Dec (t.Val × Option Err)) (h : fn t old = pure (old, false, none)) :
    viaDecFn (customDecoder fn) t .decode old fast slow = fast old := by
  unfold viaDecFn customDecoder
  rw [h]
  cases t <;> first | rfl | exact absurd rfl (ht _)

theorem elem_decode (fn : DecFn) (t : Ty) (ht : ∀ u, t ≠ .ptr u) (v : t.Val) : decodeWith fn t .elem v = decodeWith fn t .decode v := by
  cases t <;> first | rfl | exact absurd rfl (ht _)
theorem alloc_eq (t : Ty) (ht : ∀ u, t ≠ .ptr u) (v : t.Val) : t.alloc v = v := by
  cases t <;> first | rfl | exact absurd rfl (ht _)

theorem decodeSlice_new {α : Type} (zero : α) (size : Nat) (dec : α → Dec (α × Option Err)) (xs : List α) (h0 : xs ≠ []) (hl : xs.length < 2 ^ 28)
    (hsz : xs.length * size ≤ maxAlloc) (w : α → Bytes) (hw : ∀ x ∈ xs, (dec zero).Reads (w x) x) :
    (decodeSlice zero size dec none).Reads (varuintBytes xs.length ++ xs.flatMap w) (some xs) := by
  have hpos := List.length_pos_iff.2 h0
  have hn : (xs.length.toUInt64).toNat = xs.length := by rw [Nat.toUInt64, UInt64.toNat_ofNat']; omega
  have hg : goInt xs.length.toUInt64 = xs.length := goInt_toUInt64 _ (by omega)
  refine Dec.Reads.bind (readVaruint_reads _ hl) ?_
  show (if (0 : Int) ≠ goInt xs.length.toUInt64 then makeSlice zero size xs.length.toUInt64 fun xs => do
        let (ys, err) ← decEach dec xs
        pure (some ys, err)
    else _ : Dec _).Reads _ _
  rw [if_pos (by rw [hg]; omega)]
  unfold makeSlice
  rw [if_neg (by rw [hg]; omega), if_neg (by rw [hn]; omega), hn]
  exact (decEach_reads dec w zero xs hw).last rfl

/-- The function is asked for every element of a slice (here of a type that is not a pointer type, into an empty destination). -/
theorem C61_decode_slice (fn : DecFn) (t : Ty) (ht : ∀ u, t ≠ .ptr u) (h : fn (.slice t) (none : Option (List t.Val)) = pure ((none : Option (List t.Val)), false, none))
    (xs : List t.Val) (h0 : xs ≠ []) (hl : xs.length < 2 ^ 28) (hsz : xs.length * t.size ≤ maxAlloc) (w : t.Val → Bytes) (hw : ∀ x ∈ xs, (customDecode fn t t.zero).Reads (w x) x) :
    ∃ n, MinLeb n xs.length ∧ (customDecode fn (.slice t) (none : Option (List t.Val))).Reads (n ++ xs.flatMap w) (some xs : Option (List t.Val)) := by
  refine ⟨varuintBytes xs.length, varuintBytes_minLeb _ hl, ?_⟩
  refine .of_eq (viaDec_declined fn (.slice t) (fun _ h => nomatch h) (none : Option (List t.Val)) (decodeSlice t.zero t.size (decodeWith (customDecoder fn) t .elem)) (decodeSlice t.zero t.size (decodeWith (customDecoder fn) t .elem)) h) ?_
  exact decodeSlice_new t.zero t.size (decodeWith (customDecoder fn) t .elem) xs h0 hl hsz w fun x hx => .of_eq (elem_decode (customDecoder fn) t ht _) (hw x hx)

/-- The function is asked for every field. -/
theorem C61_decode_field (fn : DecFn) (hd : ∀ fs v, fn (.struct fs) v = pure (v, false, none)) (t : Ty) (ht : ∀ u, t ≠ .ptr u) (fs : Fields) (x y : t.Val) (xs ys : fs.Val) (a b : Bytes)
    (h : (customDecode fn t x).Reads a y) (hs : (customDecode fn (.struct fs) xs).Reads b ys) :
    (customDecode fn (withField .none t fs) ((x, xs) : t.Val × fs.Val)).Reads (a ++ b) ((y, ys) : t.Val × fs.Val) := by
  refine .of_eq (viaDec_declined fn (withField .none t fs) (fun _ h => nomatch h) ((x, xs) : t.Val × fs.Val) (decodeFields (customDecoder fn) (.cons .exported .none t fs) none) (decodeFields (customDecoder fn) (.cons .exported .none t fs) none) (hd _ _)) ?_
  have h1 : (decodeWith (customDecoder fn) t .elem (t.alloc x)).Reads a y := .of_eq ((elem_decode _ t ht _).trans (by rw [alloc_eq t ht]; rfl)) h
  have h2 : (decodeFields (customDecoder fn) fs none xs).Reads b ys :=
    .of_eq (viaDec_declined fn (.struct fs) (fun _ h => nomatch h) xs (decodeFields (customDecoder fn) fs none) (decodeFields (customDecoder fn) fs none) (hd _ _)).symm hs
  exact Dec.Reads.bind h1 (h2.last rfl)
theorem C61_decode_field_error (fn : DecFn) (hd : ∀ fs v, fn (.struct fs) v = pure (v, false, none)) (t : Ty) (ht : ∀ u, t ≠ .ptr u) (fs : Fields) (x y : t.Val) (xs : fs.Val)
    (fin e : Err) (bs r : Bytes) (h : (customDecode fn t x).runE fin bs = .ok (y, some e) r) :
    (customDecode fn (withField .none t fs) ((x, xs) : t.Val × fs.Val)).runE fin bs = .ok (((y, xs) : t.Val × fs.Val), some e) r := by
  refine (congrArg (fun p : Dec ((t.Val × fs.Val) × Option Err) => p.runE fin bs) (viaDec_declined fn (withField .none t fs) (fun _ h => nomatch h) ((x, xs) : t.Val × fs.Val) (decodeFields (customDecoder fn) (.cons .exported .none t fs) none) (decodeFields (customDecoder fn) (.cons .exported .none t fs) none) (hd _ _))).trans ?_
  have h1 : (decodeWith (customDecoder fn) t .elem (t.alloc x)).runE fin bs = .ok (y, some e) r := by
    rw [elem_decode _ t ht, alloc_eq t ht]; exact h
  exact plain_err (x := x) (x' := t.alloc x) (z := t.zero) (dec := fun mode => decodeWith (customDecoder fn) t mode (t.alloc x)) (rest := fun err => decodeFields (customDecoder fn) fs err xs) h1

/-! ### Values the function does not see -/

/-- A function that writes every name as one byte 42. -/
def starNames : EncFn
  | .chain .name, _ => do
    let err ← writeUint8 42
    pure (true, err)
  | _, _ => pure (false, none)
/-- A function that reads every name from one byte. -/
def byteNames : DecFn
  | .chain .name, _ => do
    let (b, err) ← readByte
    pure ((b.toUInt64 : UInt64), true, err)
  | _, old => pure (old, false, none)

/-- The function sees names and names in slices, but not the name behind a pointer, the names inside a chain type, or the target of a pointer to a pointer. -/
theorem C61_violated :
    (customEncode starNames (.chain .name) (7 : UInt64)).Writes [42] ∧
    (customEncode starNames (.slice (.chain .name)) (some [7, 8] : Option (List UInt64))).Writes [2, 42, 42] ∧
    (customEncode starNames (.ptr (.chain .name)) (some 7 : Option UInt64)).Writes [7, 0, 0, 0, 0, 0, 0, 0] ∧
    (customEncode starNames (.chain .permissionLevel) (⟨7, 8⟩ : PermissionLevel)).Writes [7, 0, 0, 0, 0, 0, 0, 0, 8, 0, 0, 0, 0, 0, 0, 0] ∧
    (customDecode byteNames (.chain .name) (0 : UInt64)).run [7] = .ok ((7 : UInt64), none) [] ∧
    (customDecode byteNames (.ptr (.chain .name)) (none : Option UInt64)).run [7, 0, 0, 0, 0, 0, 0, 1] = .ok ((some 0x0100000000000007 : Option UInt64), none) [] ∧
    (customDecode byteNames (.chain .permissionLevel) (⟨0, 0⟩ : PermissionLevel)).run [7, 0, 0, 0, 0, 0, 0, 0, 8, 0, 0, 0, 0, 0, 0, 0] = .ok ((⟨7, 8⟩ : PermissionLevel), none) [] := by
  decide +kernel

/-- The hypotheses are met: `starNames` and `byteNames` decline slices and structs, and take names. -/
example : (∀ fs v, starNames (.struct fs) v = pure (false, none)) ∧ (∀ t v, starNames (.slice t) v = pure (false, none)) ∧
    (starNames (.chain .name) (7 : UInt64)).run = .ok (true, none) [42] ∧ (∀ fs v, byteNames (.struct fs) v = pure (v, false, none)) ∧
    (customDecode byteNames (withField .none (.chain .name) .nil) (((0 : UInt64), ()) : UInt64 × Unit)).run [9] = .ok (((9 : UInt64), ()), none) [] :=
  ⟨fun _ _ => rfl, fun _ _ => rfl, rfl, fun _ _ => rfl, by decide +kernel⟩

/-- A function that refuses the name 0 and declines everything else: the slice of names stops at it. -/
def noZero : EncFn
  | .chain .name, v => if (show UInt64 from v) = 0 then pure (false, some (.io 9)) else pure (false, none)
  | _, _ => pure (false, none)
example : (customEncode noZero (.slice (.chain .name)) (some [7, 0, 8] : Option (List UInt64))).run = .ok (some (.io 9)) [3, 7, 0, 0, 0, 0, 0, 0, 0] ∧
    (customEncode noZero (.chain .name) (0 : UInt64)).run = .ok (some (.io 9)) [] ∧ (customEncode noZero (.chain .name) (7 : UInt64)).Writes [7, 0, 0, 0, 0, 0, 0, 0] := by decide +kernel

/-! ### abi.Encoder without the functions of pkg/chain -/

/-- A function that declines everything, as `abi.NewEncoder(w, fn)` may be given. -/
def plainEncoder : EncFn := fun _ _ => pure (false, none)

theorem same_bind {α β : Type} {p q : Enc α} {f g : α → Enc β} (h : p.run = q.run) (hf : ∀ a, (f a).run = (g a).run) : (p.bind f).run = (q.bind g).run := by
  rw [Enc.run_bind', Enc.run_bind', h]
  congr
  funext a o
  rw [hf]

theorem same_each {α : Type} (f g : α → Enc (Option Err)) (xs : List α) (h : ∀ x ∈ xs, (f x).run = (g x).run) :
    (encEach f (pure none) xs).run = (encEach g (pure none) xs).run := by
  induction xs with
  | nil => rfl
  | cons x xs ih =>
    refine same_bind (h x (by simp)) fun a => ?_
    cases a with
    | some e => rfl
    | none => exact ih fun y hy => h y (by simp [hy])

theorem each_byte (xs : Bytes) : (encEach (fun b : UInt8 => viaEncFn plainEncoder (.basic .u8) b (writeUint8 b)) (pure none) xs).run = (writeBytes xs).run := by
  have h := encEach_writes (fun b : UInt8 => viaEncFn plainEncoder (.basic .u8) b (writeUint8 b)) (pure none) (fun b => [b]) [] .pure xs fun b _ => writeByte_writes b
  rw [List.append_nil, List.flatMap_singleton'] at h
  exact Eq.trans h (writeBytes_writes xs).symm

theorem plain_chain (c : ChainTy) (v : c.Val) : (encodeWith plainEncoder (.chain c) v).run = (c.marshal v).run := by
  cases c
  case checksum160 => exact each_byte v
  case checksum256 => exact each_byte v
  case checksum512 => exact each_byte v
  all_goals rfl

theorem plain_field (vis : Vis) (tag : Tag) (z : Bool) (p q r s : Enc (Option Err)) (h : p.run = q.run) (h' : r.run = s.run) :
    (encodeField vis tag z p r).run = (encodeField vis tag z q s).run := by
  have hf : (if vis = .exported then p.bind fun e => match e with | some e => pure (some e) | none => r
      else .panic "reflect.Value.Interface: cannot return value obtained from unexported field or method").run =
      (if vis = .exported then q.bind fun e => match e with | some e => pure (some e) | none => s
      else .panic "reflect.Value.Interface: cannot return value obtained from unexported field or method").run := by
    split
    · refine same_bind h fun e => ?_
      cases e with
      | some e => rfl
      | none => exact h'
    · rfl
  by_cases ht : tag = .optional
  · subst ht
    refine same_bind (p := writeBool (!z)) (q := writeBool (!z)) rfl fun e => ?_
    cases z
    · exact hf
    · exact h'
  · unfold encodeField
    simp only [if_neg ht]
    exact hf

mutual
/-- It writes the same bytes and returns the same errors, also for the types encoded field by field because MarshalABI has a pointer receiver. -/
theorem C61_plain : (t : Ty) → (v : t.Val) → (encodeWith plainEncoder t v).run = (encode t v).run
  | .basic b, v => rfl
  | .bytes, v => rfl
  | .named b, v => rfl
  | .unsupported, v => rfl
  | .ref _ _ _, v => rfl
  | .chain c, v => (plain_chain c v).trans (congrArg Enc.run (encode_chain c v)).symm
  | .ptr t, v => by
    cases v with
    | none => cases t <;> rfl
    | some x =>
      have h := C61_plain t x
      cases t
      case chain c => rfl
      all_goals exact h
  | .slice t, v => same_bind (p := writeVaruint (Option.getD (α := List t.Val) v []).length.toUInt64) rfl fun e => by
    cases e with
    | some e => rfl
    | none => exact same_each _ _ _ fun x _ => C61_plain t x
  | .array _ t, v => same_each _ _ _ fun x _ => C61_plain t x
  | .map k e, v => same_bind (p := writeVaruint (Option.getD (α := List (k.Val × e.Val)) v []).length.toUInt64) rfl fun err => by
    cases err with
    | some e => rfl
    | none =>
      refine same_each _ _ _ fun x _ => same_bind (C61_plain k x.1) fun err => ?_
      cases err with
      | some e => rfl
      | none => exact C61_plain e x.2
  | .struct fs, v => plain_fields fs v
theorem plain_fields : (fs : Fields) → (v : fs.Val) → (encodeFields plainEncoder fs v).run = (encodeFields chainEncoder fs v).run
  | .nil, _ => rfl
  | .cons vis tag t fs, v => plain_field vis tag _ _ _ _ _ (C61_plain t v.1) (plain_fields fs v.2)
end

end Verif
