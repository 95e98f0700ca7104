import Verif.Lemmas.AbiExact
/-! # C47, C48, C50, C51, C52: Abi.Encode and Abi.Decode -/
namespace Verif

/-- `a.Encode(w, n, v)` writes bs and returns nil, given enough stack. -/
def Abi.Writes (a : Abi) (n : Bytes) (v : AV) (bs : Bytes) : Prop := ∃ N, ∀ fuel, N ≤ fuel → (a.encode fuel n v).Writes bs
/-- `a.Decode(r, n)` consumes exactly bs from a stream that begins with bs, and returns v and nil, given enough stack. -/
def Abi.Reads (a : Abi) (n : Bytes) (bs : Bytes) (v : AV) : Prop := ∃ N, ∀ fuel, N ≤ fuel → (a.decode fuel n).Reads bs v

theorem writes_of_wire {a : Abi} {B : Bytes → AV → Bytes → Prop} (hB : ∀ b v bs, B b v bs → (encodeBuiltin b v).Writes bs) {exact : Bool} {n : Bytes} {v : AV} {bs : Bytes}
    (hn : a.NoShort n) (h : Wire a B exact n v bs) : a.Writes n v bs := by
  obtain ⟨ts, hts⟩ := noShort_resolves hn
  obtain ⟨hr, t, ht⟩ := resolve_ready hts
  obtain ⟨N, h⟩ := wire_encode hr hB h t ht
  refine ⟨N, fun fuel hf => ?_⟩
  unfold Abi.encode
  rw [hts]
  exact h fuel hf

theorem reads_of_wire {a : Abi} {B : Bytes → AV → Bytes → Prop} (hB : ∀ b v bs, B b v bs → (decodeBuiltin b).Reads bs v) {n : Bytes} {v : AV} {bs : Bytes}
    (hn : a.NoShort n) (h : Wire a B true n v bs) : a.Reads n bs v := by
  obtain ⟨ts, hts⟩ := noShort_resolves hn
  obtain ⟨hr, t, ht⟩ := resolve_ready hts
  obtain ⟨N, h⟩ := wire_decode hr hB h t ht
  refine ⟨N, fun fuel hf => ?_⟩
  unfold Abi.decode
  rw [hts]
  exact h fuel hf

theorem wire_of_writes {a : Abi} (ha : a.Real) {B : Bytes → AV → Bytes → Prop} (hB : ∀ b v bs, v.Real → (encodeBuiltin b v).Writes bs → B b v bs) {fuel : Nat} {n : Bytes}
    {v : AV} (hv : v.Real) {bs : Bytes} (h : (a.encode fuel n v).Writes bs) : Wire a B false n v bs := by
  unfold Abi.encode at h
  cases hts : resolve a n with
  | panic => rw [hts] at h; cases h
  | diverge => rw [hts] at h; cases h
  | val ts =>
    rw [hts] at h
    obtain ⟨hr, t, ht⟩ := resolve_ready hts
    exact encode_sound hr ha hB fuel n t v bs ht hv h

/-! ## C47 -/

/-- A value with exactly the declared fields: Encode writes its wire form, Decode reads the same value back, whatever follows. -/
theorem C47_exact_partial (a : Abi) (n : Bytes) (hn : a.NoShort n) (v : AV) (bs : Bytes) (h : Wire a Plain true n v bs) : a.Writes n v bs ∧ a.Reads n bs v :=
  ⟨writes_of_wire (fun _ _ _ => plain_encodes) hn h, reads_of_wire (fun _ _ _ => plain_decodes) hn h⟩

/-- Any other value of the type: the entries that are no fields are lost and absent optional fields become explicit. Encoding the result again gives the same bytes. -/
theorem C47_roundtrip_partial (a : Abi) (hd : a.DistinctFields) (n : Bytes) (hn : a.NoShort n) (v : AV) (bs : Bytes) (h : Wire a Plain false n v bs) :
    a.Writes n v bs ∧ ∃ w, Restricts v w ∧ a.Reads n bs w ∧ a.Writes n w bs := by
  obtain ⟨w, h1, h2⟩ := wire_exact hd h
  obtain ⟨h3, h4⟩ := C47_exact_partial a n hn w bs h2
  exact ⟨writes_of_wire (fun _ _ _ => plain_encodes) hn h, w, h1, h4, h3⟩

/-- Decode accepts the wire form of every builtin type, "bytes" included. -/
theorem C47_decode (a : Abi) (n : Bytes) (hn : a.NoShort n) (v : AV) (bs : Bytes) (h : Wire a DecodesAs true n v bs) : a.Reads n bs v :=
  reads_of_wire (fun _ _ _ => decodesAs_decodes) hn h

/-- Different values have different encodings. -/
theorem C47_injective (a : Abi) (n : Bytes) (hn : a.NoShort n) (v w : AV) (bs : Bytes) (h : Wire a DecodesAs true n v bs) (h' : Wire a DecodesAs true n w bs) : v = w := by
  obtain ⟨N, h1⟩ := C47_decode a n hn v bs h
  obtain ⟨M, h2⟩ := C47_decode a n hn w bs h'
  exact (h1 (N + M) (by omega)).det (h2 (N + M) (by omega))

theorem noShort_of {a : Abi} {n : Bytes} (h : resolve a n ≠ .panic) : a.NoShort n := fun m hr hs => h ((C46_panics_iff a n).2 ⟨m, hr, hs⟩)

/-- "eosio::name" can be written but not read; a []byte is written as "bytes" without a length, so that reading it back gives something else;
a Go uint64 comes back as chain.Uint64. -/
theorem C47_violated :
    (Abi.Writes {} (asc "eosio::name") (.chain .name (5 : UInt64)) [5, 0, 0, 0, 0, 0, 0, 0] ∧ ∀ fuel,
      (Abi.decode {} (fuel + 1) (asc "eosio::name")).run [5, 0, 0, 0, 0, 0, 0, 0] = .ok (.nil, some errUnknownType) [5, 0, 0, 0, 0, 0, 0, 0]) ∧
    (Abi.Writes {} (asc "bytes") (.byteSlice [1, 7]) [1, 7] ∧ Abi.Reads {} (asc "bytes") [1, 7] (.chain .bytes (some [7]))) ∧
    (Abi.Writes {} (asc "uint64") (.basic .u64 (5 : UInt64)) [5, 0, 0, 0, 0, 0, 0, 0] ∧
      Abi.Reads {} (asc "uint64") [5, 0, 0, 0, 0, 0, 0, 0] (.chain .uint64 (5 : UInt64))) := by
  have s1 : Spelled (asc "eosio::name") (asc "eosio::name") false false false := (parse_spelled ..).1 (by decide)
  have s2 : Spelled (asc "bytes") (asc "bytes") false false false := (parse_spelled ..).1 (by decide)
  have s3 : Spelled (asc "uint64") (asc "uint64") false false false := (parse_spelled ..).1 (by decide)
  have nd : ∀ b, NotDefined {} b := fun b => ⟨⟨by simp [NoStruct], by simp⟩, by simp⟩
  have lf : LeForm 8 (5 : UInt64).toNat [5, 0, 0, 0, 0, 0, 0, 0] := ⟨rfl, by decide⟩
  refine ⟨⟨writes_of_wire (exact := false) (fun _ _ _ => encodesAs_encodes) (noShort_of (by decide)) (.plain s1 (fun h => nomatch h) (.one (.builtin (nd _) (.eosioName lf)))),
      fun fuel => rfl⟩,
    ⟨writes_of_wire (exact := false) (fun _ _ _ => encodesAs_encodes) (noShort_of (by decide)) (.plain s2 (fun h => nomatch h) (.one (.builtin (nd _) .bytes))),
      reads_of_wire (fun _ _ _ => decodesAs_decodes) (noShort_of (by decide)) (.plain s2 (fun h => nomatch h) (.one (.builtin (nd _) (.bytes (by decide) ?_))))⟩,
    writes_of_wire (exact := false) (fun _ _ _ => encodesAs_encodes) (noShort_of (by decide)) (.plain s3 (fun h => nomatch h) (.one (.builtin (nd _) (.uint64 lf)))),
    reads_of_wire (fun _ _ _ => decodesAs_decodes) (noShort_of (by decide)) (.plain s3 (fun h => nomatch h) (.one (.builtin (nd _) (.plain (.chain (by decide) trivial ?_)))))⟩
  · exact ⟨[1], varuintBytes_minLeb 1 (by decide), rfl⟩
  · exact lf

/-- A list with one more node and an item in the variant: { value: 7, next: { value: 1, next: nil, items: [["int", 5]] } } -/
def sampleNode : AV := .map [(asc "value", .basic .u8 (7 : UInt8)),
  (asc "next", .map [(asc "value", .basic .u8 (1 : UInt8)), (asc "next", .nil), (asc "items", .slice [.slice [.basic .string (asc "int"), .basic .i64 (5 : Int64)]])])]

theorem sampleNode_wire : Wire sampleAbi Plain true (asc "node") sampleNode [7, 1, 1, 0, 1, 1, 5, 0, 0, 0, 0, 0, 0, 0] := by
  have nodeFields : FieldsOf sampleAbi (asc "node") [⟨asc "value", asc "uint8"⟩, ⟨asc "next", asc "list?"⟩] :=
    .root (s := ⟨asc "node", [], _⟩) ((getStruct_iff ..).1 (by decide +kernel)) rfl
  have listFields : FieldsOf sampleAbi (asc "list") [⟨asc "value", asc "uint8"⟩, ⟨asc "next", asc "list?"⟩, ⟨asc "items", asc "item[]"⟩] :=
    .derived (s := ⟨asc "list", asc "node", [⟨asc "items", asc "item[]"⟩]⟩) ((getStruct_iff ..).1 (by decide +kernel)) (by decide)
      (b' := asc "node") (arr := false) (ext := false) (opt := false) ((parse_spelled ..).1 (by decide +kernel)) nodeFields
  have nd : ∀ b, b = asc "uint8" ∨ b = asc "int64" → NotDefined sampleAbi b := by
    rintro b (rfl | rfl) <;> exact ⟨⟨by unfold NoStruct; decide +kernel, by decide +kernel⟩, by decide +kernel⟩
  have u8 : ∀ x : UInt8, Wire sampleAbi Plain true (asc "uint8") (.basic .u8 x) [x] := fun x =>
    .plain (b := asc "uint8") (arr := false) (ext := false) ((parse_spelled ..).1 (by decide +kernel)) (fun h => nomatch h)
      (.one (.builtin (nd _ (.inl rfl)) (.basic (by decide) trivial ⟨rfl, by simp [leValue]⟩)))
  have i64 : Wire sampleAbi Plain true (asc "int64") (.basic .i64 (5 : Int64)) [5, 0, 0, 0, 0, 0, 0, 0] :=
    .plain (b := asc "int64") (arr := false) (ext := false) ((parse_spelled ..).1 (by decide +kernel)) (fun h => nomatch h)
      (.one (.builtin (nd _ (.inr rfl)) (.basic (by decide) trivial ⟨rfl, by decide⟩)))
  have int : Wire sampleAbi Plain true (asc "int") (.basic .i64 (5 : Int64)) [5, 0, 0, 0, 0, 0, 0, 0] :=
    .plain (b := asc "int") (arr := false) (ext := false) ((parse_spelled ..).1 (by decide +kernel)) (fun h => nomatch h)
      (.one (.alias (t := ⟨asc "int", asc "int64"⟩) ⟨⟨by unfold NoStruct; decide +kernel, by decide +kernel⟩, rfl, [], [], rfl, by simp⟩ i64))
  have item : Inner sampleAbi Plain true (asc "item") (.slice [.basic .string (asc "int"), .basic .i64 (5 : Int64)]) ([1] ++ [5, 0, 0, 0, 0, 0, 0, 0]) :=
    .variant (v := ⟨asc "item", [asc "node", asc "int"]⟩) ⟨by unfold NoStruct; decide +kernel, rfl, [], [], rfl, by simp⟩ (pre := [asc "node"]) (post := []) rfl (by decide)
      ⟨varuintBytes_minLeb 1 (by decide), by decide⟩ int
  have items : Wire sampleAbi Plain true (asc "item[]") (.slice [.slice [.basic .string (asc "int"), .basic .i64 (5 : Int64)]]) ([1] ++ ([1, 5, 0, 0, 0, 0, 0, 0, 0] ++ [])) :=
    .plain (b := asc "item") (arr := true) (ext := false) ((parse_spelled ..).1 (by decide +kernel)) (fun h => nomatch h)
      (.many ⟨varuintBytes_minLeb 1 (by decide), by decide⟩ (.cons item .nil))
  have entry : ∀ m k x, mapGet m k = x → Entry m k x := fun m k x h => (entry_mapGet m k x).2 h
  have none : Wire sampleAbi Plain true (asc "list?") .nil [0] := .absent (b := asc "list") (arr := false) (ext := false) ((parse_spelled ..).1 (by decide +kernel))
  have list : Wire sampleAbi Plain true (asc "list?") (.map [(asc "value", .basic .u8 (1 : UInt8)), (asc "next", .nil),
      (asc "items", .slice [.slice [.basic .string (asc "int"), .basic .i64 (5 : Int64)]])]) (1 :: ([1] ++ ([0] ++ ([1, 1, 5, 0, 0, 0, 0, 0, 0, 0] ++ [])))) :=
    .present (b := asc "list") (arr := false) (ext := false) ((parse_spelled ..).1 (by decide +kernel)) (fun h => nomatch h)
      (.one (.struct listFields (.cons (entry _ _ _ rfl) (u8 1) (.cons (entry _ _ _ rfl) none (.cons (entry _ _ _ rfl) items .nil))) fun _ => ⟨rfl, by decide +kernel⟩))
  exact .plain (b := asc "node") (arr := false) (ext := false) ((parse_spelled ..).1 (by decide +kernel)) (fun h => nomatch h)
    (.one (.struct (bs := [7] ++ ((1 :: ([1] ++ ([0] ++ ([1, 1, 5, 0, 0, 0, 0, 0, 0, 0] ++ [])))) ++ [])) nodeFields
      (.cons (entry _ _ _ rfl) (u8 7) (.cons (entry _ _ _ rfl) list .nil)) fun _ => ⟨rfl, by decide +kernel⟩))

example : sampleAbi.Writes (asc "node") sampleNode [7, 1, 1, 0, 1, 1, 5, 0, 0, 0, 0, 0, 0, 0] ∧
    sampleAbi.Reads (asc "node") [7, 1, 1, 0, 1, 1, 5, 0, 0, 0, 0, 0, 0, 0] sampleNode :=
  C47_exact_partial _ _ (noShort_of (by decide +kernel)) _ _ sampleNode_wire

/-! ## C48 -/

/-- The fields of a struct type are those of the chain of its bases, the outermost first, then its own; without such a chain (a base that is no struct, or a circle)
there are none. -/
theorem C48_fields (a : Abi) (n m : Bytes) (ts : Types) (t : Resolved) (h : resolve a n = .val ts) (ht : ts.get m = some t) :
    (∀ fs, FieldsOf a t.baseName fs → t.allFields ts = fs.map fun f => (f.name, f.type)) ∧ ((∀ fs, ¬ FieldsOf a t.baseName fs) → t.allFields ts = []) :=
  ⟨fun _ hf => allFields_some (resolve_ready h).1 ht hf, fun hf => allFields_none (resolve_ready h).1 ht hf⟩

/-- The loop in allFields ends within as many rounds as there are types. -/
theorem C48_fuel (a : Abi) (n m : Bytes) (ts : Types) (t : Resolved) (h : resolve a n = .val ts) (ht : ts.get m = some t) (k : Nat) :
    allFieldsLoop ts (ts.length + 1 + k) [] t [] = t.allFields ts := by
  have hr := (resolve_ready h).1
  refine loop_fuel ts _ [] t [] m ht (hr m t ht).1.1 (fun k u hu => (hr k u hu).1.1) ?_ k
  have := fresh_le ts []
  omega

/-- A chain of structs has one list of fields. -/
theorem C48_unique (a : Abi) (b : Bytes) (fs fs' : List AbiField) (h : FieldsOf a b fs) (h' : FieldsOf a b fs') : fs = fs' := fieldsOf_unique h h'

theorem members_of_parts {a : Abi} (ha : a.Real) {m : List (Bytes × AV)} (hm : realEntries m) : ∀ (fs : List AbiField) (parts : List Bytes),
    Forall2 (fun f p => ∃ x, Entry m f.name x ∧ a.Writes f.type x p) fs parts → Members a (fun b v bs => (encodeBuiltin b v).Writes bs) false fs m parts.flatten := by
  intro fs parts h
  induction h with
  | nil => exact .nil
  | cons h _ ih =>
    obtain ⟨x, h1, N, h2⟩ := h
    refine .cons h1 (wire_of_writes ha (fun _ _ _ _ h => h) ?_ (h2 N (Nat.le_refl _))) ih
    rw [← (entry_mapGet _ _ _).1 h1]
    exact mapGet_real hm _

/-- Encode writes the fields one after the other, in this order. -/
theorem C48_encode (a : Abi) (ha : a.Real) (n b : Bytes) (ext : Bool) (hn : a.NoShort n) (hs : Spelled n b false ext false) (f : AbiField) (fs : List AbiField)
    (hf : FieldsOf a b (f :: fs)) (m : List (Bytes × AV)) (hm : (AV.map m).Real) (parts : List Bytes)
    (hp : Forall2 (fun f p => ∃ x, Entry m f.name x ∧ a.Writes f.type x p) (f :: fs) parts) : a.Writes n (.map m) parts.flatten := by
  refine writes_of_wire (fun _ _ _ h => h) hn (exact := false) (.plain hs (fun h => nomatch h) (.one (.struct hf (members_of_parts ha ?_ _ _ hp) fun e => nomatch e)))
  simpa [AV.Real] using hm

/-- Derived structs: outermost base first. -/
example : ∃ fs, FieldsOf { structs := [⟨asc "cc", asc "bb", [⟨asc "z", asc "uint8"⟩]⟩, ⟨asc "bb", asc "aa", [⟨asc "y", asc "uint16"⟩]⟩,
    ⟨asc "aa", [], [⟨asc "w", asc "bool"⟩, ⟨asc "x", asc "string"⟩]⟩] } (asc "cc") fs ∧ fs.map AbiField.name = [asc "w", asc "x", asc "y", asc "z"] := by
  have sp : ∀ n : Bytes, n = asc "aa" ∨ n = asc "bb" → Spelled n n false false false := by
    rintro n (rfl | rfl) <;> exact (parse_spelled ..).1 (by decide)
  refine ⟨_, .derived (s := ⟨asc "cc", asc "bb", [⟨asc "z", asc "uint8"⟩]⟩) ((getStruct_iff ..).1 (by decide)) (by decide) (sp _ (.inr rfl))
    (.derived (s := ⟨asc "bb", asc "aa", [⟨asc "y", asc "uint16"⟩]⟩) ((getStruct_iff ..).1 (by decide)) (by decide) (sp _ (.inl rfl))
    (.root (s := ⟨asc "aa", [], [⟨asc "w", asc "bool"⟩, ⟨asc "x", asc "string"⟩]⟩) ((getStruct_iff ..).1 (by decide)) rfl)), ?_⟩
  decide

/-! ## C52 -/

/-- Encode succeeds only for values of the type, with the Go types that belong to the builtin types, and what it writes is the wire form. -/
theorem C52_sound (a : Abi) (ha : a.Real) (fuel : Nat) (n : Bytes) (v : AV) (hv : v.Real) (bs : Bytes) (h : (a.encode fuel n v).Writes bs) : Wire a Fits false n v bs :=
  wire_of_writes ha encodeBuiltin_fits hv h

/-- It does succeed for those. -/
theorem C52_complete (a : Abi) (n : Bytes) (hn : a.NoShort n) (v : AV) (bs : Bytes) (h : Wire a EncodesAs false n v bs) : a.Writes n v bs :=
  writes_of_wire (fun _ _ _ => encodesAs_encodes) hn h

/-- A struct value in which an entry for a field is absent or nil, and the field is not optional, is never written. -/
theorem C52_missing (a : Abi) (ha : a.Real) (fuel : Nat) (n b : Bytes) (ext opt : Bool) (hs : Spelled n b false ext opt) (fs : List AbiField) (hf : FieldsOf a b fs)
    (f : AbiField) (hm : f ∈ fs) (b' : Bytes) (arr' ext' : Bool) (hs' : Spelled f.type b' arr' ext' false) (m : List (Bytes × AV)) (hv : (AV.map m).Real)
    (he : Entry m f.name .nil) (bs : Bytes) : ¬ (a.encode fuel n (.map m)).Writes bs := by
  intro h
  have hw := C52_sound a ha fuel n _ hv bs h
  have key : ∀ bs, ¬ Inner a Fits false b (.map m) bs := by
    intro bs hi
    obtain ⟨s, hst⟩ := fieldsOf_struct hf
    cases hi with
    | «alias» h1 _ => exact noStruct_isStruct h1.1.1 hst
    | struct h1 h2 _ =>
      have := fieldsOf_unique h1 hf
      subst this
      have : ∀ fs bs, f ∈ fs → ¬ Members a Fits false fs m bs := by
        intro fs
        induction fs with
        | nil => intro _ hf; cases hf
        | cons g fs ih =>
          intro bs hf hmm
          cases hmm with
          | cons e1 w1 m1 =>
            rcases List.mem_cons.1 hf with rfl | hf
            · rw [entry_mapGet] at e1 he
              rw [← e1, he] at w1
              cases w1 with
              | absent hs2 => exact absurd (spelled_unique hs' hs2).2.2.2 (by decide)
              | present _ hne _ => exact hne rfl
              | plain _ hne _ => exact hne rfl
            · exact ih _ hf m1
      exact this _ _ hm h2
    | builtin h1 _ => exact noStruct_isStruct h1.1.1 hst
    | hollow _ h2 _ => rw [h2 _ hf] at hm; cases hm
  cases hw with
  | present hs2 _ hb =>
    obtain ⟨rfl, e, _⟩ := spelled_unique hs hs2
    subst e
    cases hb with
    | one hi => exact key _ hi
  | plain hs2 _ hb =>
    obtain ⟨rfl, e, _⟩ := spelled_unique hs hs2
    subst e
    cases hb with
    | one hi => exact key _ hi

/-- A node without its value -/
example (fuel : Nat) (bs : Bytes) : ¬ (sampleAbi.encode fuel (asc "node") (.map [(asc "next", .nil)])).Writes bs :=
  C52_missing sampleAbi (by unfold Abi.Real; decide +kernel) fuel (asc "node") (asc "node") false false ((parse_spelled ..).1 (by decide +kernel))
    [⟨asc "value", asc "uint8"⟩, ⟨asc "next", asc "list?"⟩] (.root (s := ⟨asc "node", [], _⟩) ((getStruct_iff ..).1 (by decide +kernel)) rfl)
    ⟨asc "value", asc "uint8"⟩ (by simp) (asc "uint8") false false ((parse_spelled ..).1 (by decide +kernel)) _ (by simp [AV.Real, realEntries])
    ((entry_mapGet ..).2 (rfl)) bs

/-- Entries that are no fields make no difference. -/
theorem C52_extra (a : Abi) (fuel : Nat) (n b : Bytes) (ext opt : Bool) (hs : Spelled n b false ext opt) (f : AbiField) (fs : List AbiField) (hf : FieldsOf a b (f :: fs))
    (m m' : List (Bytes × AV)) (h : ∀ g ∈ f :: fs, ∀ x, Entry m g.name x ↔ Entry m' g.name x) : a.encode fuel n (.map m) = a.encode fuel n (.map m') := by
  unfold Abi.encode
  cases hts : resolve a n with
  | panic => rfl
  | diverge => rfl
  | val ts =>
    obtain ⟨hr, t, ht⟩ := resolve_ready hts
    cases fuel with
    | zero => rfl
    | succ fuel =>
      have hb : b = t.baseName := (spelled_unique hs (hr n t ht).1.2.1).1
      have ha : false = t.isArray := (spelled_unique hs (hr n t ht).1.2.1).2.1
      subst hb
      obtain ⟨h1, h2, h3⟩ := table_struct hr ht hf
      have hcongr : ∀ gs : List AbiField, (∀ g ∈ gs, g ∈ f :: fs) →
          encEach (fun f : Bytes × Bytes => encodeTypeF ts fuel f.2 (mapGet m f.1)) (pure none) (fieldPairs gs) =
          encEach (fun f : Bytes × Bytes => encodeTypeF ts fuel f.2 (mapGet m' f.1)) (pure none) (fieldPairs gs) := by
        intro gs
        induction gs with
        | nil => intro _; rfl
        | cons g gs ih =>
          intro hg
          have e1 : mapGet m g.name = mapGet m' g.name := ((entry_mapGet _ _ _).1 ((h g (hg g (by simp)) _).1 ((entry_mapGet _ _ _).2 rfl))).symm
          have e2 := ih fun x hx => hg x (by simp [hx])
          show (encodeTypeF ts fuel g.type (mapGet m g.name) >>= _) = (encodeTypeF ts fuel g.type (mapGet m' g.name) >>= _)
          rw [e1]
          simp only [fieldPairs] at e2
          simp only [e2]
      have : encodeInner ts (encodeTypeF ts fuel) t (.map m) = encodeInner ts (encodeTypeF ts fuel) t (.map m') := by
        unfold encodeInner
        rw [h1, h2]
        simp only
        rw [if_pos (by simp [fieldPairs]), if_pos (by simp [fieldPairs])]
        exact hcongr _ fun _ h => h
      unfold encodeTypeF
      simp only [ht, AV.isNil, encodeBody, ← ha, this]

/-! ## C50 -/

/-- A struct without fields is neither written nor read: its name is looked up among the builtin types. -/
theorem C50_violated (a : Abi) (n b : Bytes) (ext : Bool) (hn : a.NoShort n) (hs : Spelled n b false ext false) (hf : FieldsOf a b []) (fuel : Nat) :
    (∀ v, v ≠ .nil → a.encode (fuel + 1) n v = encodeBuiltin b v) ∧
    ((∀ c ∈ encCases, c.1 ≠ b) → ∀ v bs, ¬ (a.encode (fuel + 1) n v).Writes bs) ∧
    ((∀ c ∈ decCases, c.1 ≠ b) → ∀ bs, (a.decode (fuel + 1) n).run bs = .ok (.nil, some errUnknownType) bs) := by
  obtain ⟨ts, hts⟩ := noShort_resolves hn
  obtain ⟨hr, t, ht⟩ := resolve_ready hts
  have hsp := spelled_unique hs (hr n t ht).1.2.1
  obtain ⟨rfl, h1, h2, h3⟩ := hsp
  obtain ⟨s, hst⟩ := fieldsOf_struct hf
  obtain ⟨g1, g2, g3⟩ := table_hollow hr ht hst fun fs h => fieldsOf_unique h hf
  have he : ∀ v, v ≠ .nil → a.encode (fuel + 1) n v = encodeBuiltin t.baseName v := by
    intro v hv
    unfold Abi.encode
    rw [hts]
    simp only [encodeTypeF, ht, ← h3, isNil_false hv, encodeBody, ← h1, encodeInner, g1, g2, g3]
    simp
  refine ⟨he, fun hc v bs h => ?_, fun hc bs => ?_⟩
  · by_cases hv : v = .nil
    · subst hv
      unfold Abi.encode at h
      rw [hts] at h
      simp only [encodeTypeF, ht, ← h3, AV.isNil] at h
      cases h
    · rw [he v hv] at h
      unfold encodeBuiltin at h
      rw [List.find?_eq_none.2 fun c hc' => by simpa using hc c hc'] at h
      cases h
  · have hdb : decodeBuiltin t.baseName = pure (.nil, some errUnknownType) := by
      unfold decodeBuiltin
      rw [List.find?_eq_none.2 fun c hc' => by simpa using hc c hc']
    unfold Abi.decode
    rw [hts]
    simp only [decodeTypeF, ht, ← h3, decodeBody, ← h1, decodeInner, g1, g2, g3, hdb]
    rfl

/-- Such an ABI -/
example : FieldsOf { structs := [⟨asc "close", [], []⟩] } (asc "close") [] ∧ (∀ c ∈ encCases, c.1 ≠ asc "close") ∧ (∀ c ∈ decCases, c.1 ≠ asc "close") ∧
    Abi.NoShort { structs := [⟨asc "close", [], []⟩] } (asc "close") := by
  refine ⟨.root (s := ⟨asc "close", [], []⟩) ((getStruct_iff ..).1 (by decide)) rfl, by decide, by decide, noShort_of (by decide)⟩

/-- As a base it is no obstacle. -/
theorem C50_base_partial (a : Abi) (b b' : Bytes) (arr ext opt : Bool) (s : AbiStruct) (hs : IsStruct a b s) (hb : Spelled s.base b' arr ext opt) (he : s.base ≠ [])
    (hf : FieldsOf a b' []) (fs : List AbiField) (h : FieldsOf a b fs) : fs = s.fields := fieldsOf_unique h (.derived hs he hb hf)

/-! ## C51 -/

theorem reach_notDefined {a : Abi} {n b : Bytes} {arr ext opt : Bool} (hs : Spelled n b arr ext opt) (hd : NotDefined a b) {m : Bytes} (h : Reach a n m) : m = n := by
  induction h with
  | refl => rfl
  | step _ h ih =>
    subst ih
    cases h with
    | base h1 h2 _ => rw [← (spelled_unique hs h1).1] at h2; exact (noStruct_isStruct hd.1.1 h2).elim
    | field h1 h2 _ => rw [← (spelled_unique hs h1).1] at h2; exact (noStruct_isStruct hd.1.1 h2).elim
    | member h1 h2 _ => rw [← (spelled_unique hs h1).1] at h2; exact absurd h2.2.1 (hd.1.2 _ (mem_of_first h2.2))
    | «alias» h1 h2 => rw [← (spelled_unique hs h1).1] at h2; exact absurd h2.2.1 (hd.2 _ (mem_of_first h2.2))

theorem noShort_notDefined {a : Abi} {n b : Bytes} {arr ext opt : Bool} (hs : Spelled n b arr ext opt) (hd : NotDefined a b) : a.NoShort n := by
  refine noShort_of fun hp => ?_
  obtain ⟨m, h1, h2⟩ := (C46_panics_iff a n).1 hp
  have := reach_notDefined hs hd h1
  subst this
  have h3 := (parse_spelled ..).2 hs
  rw [(parse_short ..).2 h2] at h3
  cases h3

theorem bytes_spelled : Spelled (asc "bytes") (asc "bytes") false false false := (parse_spelled ..).1 (by decide)

/-- What Decode yields for "bytes" is refused by Encode. What Encode takes for "bytes" is written without its length. -/
theorem C51_violated (a : Abi) (hd : NotDefined a (asc "bytes")) (x w : Bytes) (hx : x.length < 2 ^ 28) (hw : Prefixed w x) :
    a.Reads (asc "bytes") w (.chain .bytes (some x)) ∧ (∀ fuel, a.encode (fuel + 1) (asc "bytes") (.chain .bytes (some x)) = pure (some errExpectedType)) ∧
    a.Writes (asc "bytes") (.byteSlice x) x ∧ x ≠ w := by
  have hn := noShort_notDefined bytes_spelled hd
  refine ⟨reads_of_wire (fun _ _ _ => decodesAs_decodes) hn (.plain bytes_spelled (fun h => nomatch h) (.one (.builtin hd (.bytes hx hw)))), fun fuel => ?_,
    writes_of_wire (exact := false) (fun _ _ _ => encodesAs_encodes) hn (.plain bytes_spelled (fun h => nomatch h) (.one (.builtin hd .bytes))), ?_⟩
  · obtain ⟨ts, hts⟩ := noShort_resolves hn
    obtain ⟨hr, t, ht⟩ := resolve_ready hts
    obtain ⟨h0, h1, h2, h3⟩ := spelled_unique bytes_spelled (hr _ t ht).1.2.1
    obtain ⟨g1, g2, g3⟩ := table_notDefined hr ht (h0 ▸ hd)
    unfold Abi.encode
    rw [hts]
    simp only [encodeTypeF, ht, ← h3, AV.isNil, encodeBody, ← h1, encodeInner, g1, g2, g3, ← h0]
    rfl
  · obtain ⟨lb, h1, h2⟩ := hw
    intro e
    have hl := congrArg List.length (e.trans h2)
    rw [List.length_append] at hl
    have : lb.length = 0 := by omega
    rw [List.length_eq_zero_iff.1 this] at h1
    obtain ⟨⟨init, last, h1, _⟩, _⟩ := h1
    simp at h1

/-- With the length put in front by the caller, what is written can be read. -/
theorem C51_prefixed_partial (a : Abi) (hd : NotDefined a (asc "bytes")) (x w : Bytes) (hx : x.length < 2 ^ 28) (hw : Prefixed w x) :
    a.Writes (asc "bytes") (.byteSlice w) w ∧ a.Reads (asc "bytes") w (.chain .bytes (some x)) := by
  have hn := noShort_notDefined bytes_spelled hd
  exact ⟨writes_of_wire (exact := false) (fun _ _ _ => encodesAs_encodes) hn (.plain bytes_spelled (fun h => nomatch h) (.one (.builtin hd .bytes))), (C51_violated a hd x w hx hw).1⟩

example : ∃ w : Bytes, Prefixed w [1, 2, 3] ∧ NotDefined sampleAbi (asc "bytes") :=
  ⟨_, ⟨_, varuintBytes_minLeb 3 (by decide), rfl⟩, ⟨by unfold NoStruct; decide +kernel, by decide +kernel⟩, by decide +kernel⟩

end Verif
