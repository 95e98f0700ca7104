import Verif.Lemmas.AbiBinary
import Verif.Props.Reflect
import Verif.Props.Fields
/-! # C55: the binary form of ABI definitions -/
namespace Verif

/-- Encoding any Go value with the content of the ABI, whether empty slices are nil or not, writes the documented form, and decoding that into any variable gives a value with the
content of the ABI. -/
theorem C55_roundtrip (a : Abi) (hs : a.Small) (v : abiTy.Val) (h : Represents v a) :
    ∃ bs, a.Layout bs ∧ (encode abiTy v).Writes bs ∧ ∀ old, ∃ w, Represents w a ∧ (decode abiTy old).Reads bs w := by
  obtain ⟨bs, h1, h2⟩ := C40_layout abiTy v abi_encodable (abi_wf v a h hs)
  refine ⟨bs, (abi_layout v a h bs).1 h1, h2, fun old => ?_⟩
  obtain ⟨w, h3, h4⟩ := C40_reads abiTy v old bs abi_decodable (abi_wf v a h hs) (abi_clean old) h1
  exact ⟨w, abi_same v w a h h3, h4⟩

/-- The documented form of an ABI is read back, whoever wrote it. -/
theorem C55_decode (a : Abi) (hs : a.Small) (bs : Bytes) (hl : a.Layout bs) (old : abiTy.Val) : ∃ w, Represents w a ∧ (decode abiTy old).Reads bs w := by
  obtain ⟨v, h⟩ := abi_exists a
  obtain ⟨w, h3, h4⟩ := C40_reads abiTy v old bs abi_decodable (abi_wf v a h hs) (abi_clean old) ((abi_layout v a h bs).2 hl)
  exact ⟨w, abi_same v w a h h3, h4⟩

/-- Every ABI is the content of a Go value, so that C55_roundtrip covers every ABI, and a Go value has at most one content. -/
theorem C55_represents (a : Abi) : (∃ v, Represents v a) ∧ ∀ v a', Represents v a → Represents v a' → a = a' := ⟨abi_exists a, fun v a' => abi_fun v a a'⟩

/-- Different ABIs have different forms, also when more bytes follow. -/
theorem C55_injective (a a' : Abi) (hs : a.Small) (hs' : a'.Small) (bs bs' r r' : Bytes) (h : a.Layout bs) (h' : a'.Layout bs') (he : bs ++ r = bs' ++ r') : a = a' ∧ bs = bs' := by
  obtain ⟨w, h1, h2⟩ := C55_decode a hs bs h abiTy.zero
  obtain ⟨w', h1', h2'⟩ := C55_decode a' hs' bs' h' abiTy.zero
  have e := h2 .eof r
  rw [he, h2' .eof r'] at e
  cases e
  exact ⟨abi_fun w a a' h1 h1', List.append_cancel_right he⟩

theorem field_reads {t : Ty} {v : t.Val} (old : t.Val) {bs : Bytes} (hd : t.Decodable .elem) (hw : t.Wf v) (hc : t.Clean old) (hl : t.Layout v bs) :
    ∃ w, t.Same v w ∧ ∀ fin rest, (fieldDecode t old).runE fin (bs ++ rest) = .ok (w, none) rest := by
  obtain ⟨w, h1, h2⟩ := decode_layout t .elem v old bs (.inr (.inl rfl)) hd hw hc hl
  exact ⟨w, h1, fun fin rest => by rw [← elem_eq]; exact h2 fin rest⟩

/-- An ABI written without the variants is read as an ABI without variants, whatever the variable held; but Decode returns io.EOF (C43_extension_last_violated). -/
theorem C55_no_variants_violated (a : Abi) (hs : a.Small) (bs : Bytes) (hl : a.HeadLayout bs) (old : abiTy.Val) :
    ∃ w, Represents w { a with variants := [] } ∧ (decode abiTy old).run bs = .ok (w, some .eof) [] := by
  obtain ⟨v, h⟩ := abi_exists a
  have hw := abi_wf v a h hs
  have hc := abi_clean old
  have hd := abi_decodable
  obtain ⟨x1, x2, x3, x4, x5, x6, x7, x8, x9, u⟩ : GoAbi := v
  obtain ⟨o1, o2, o3, o4, o5, o6, o7, o8, o9, u'⟩ : GoAbi := old
  obtain ⟨h1, h2, h3, h4, h5, h6, h7, h8, h9⟩ := h
  obtain ⟨b1, b2, b3, b4, b5, b6, b7, b8, p1, p2, p3, p4, p5, p6, p7, p8, rfl⟩ := hl
  obtain ⟨c1, c2, c3, c4, c5, c6, c7, c8, c9, _⟩ := hc
  obtain ⟨_, _, d1, _, _, d2, _, _, d3, _, _, d4, _, _, d5, _, _, d6, _, _, d7, _, _, d8, _, _, d9, _⟩ := hd
  obtain ⟨w1, w2, w3, w4, w5, w6, w7, w8, w9, _⟩ := hw
  obtain ⟨y1, s1, r1⟩ := field_reads (t := (.basic .string)) o1 d1 (w1.resolve_left (fun h => nomatch h.1)) c1 ((string_layout h1 b1).2 p1)
  obtain ⟨y2, s2, r2⟩ := field_reads (t := (.slice abiTypeTy)) o2 d2 (w2.resolve_left (fun h => nomatch h.1)) c2 ((counted_iff h2 rep_type_layout b2).2 p2)
  obtain ⟨y3, s3, r3⟩ := field_reads (t := (.slice abiStructTy)) o3 d3 (w3.resolve_left (fun h => nomatch h.1)) c3 ((counted_iff h3 rep_struct_layout b3).2 p3)
  obtain ⟨y4, s4, r4⟩ := field_reads (t := (.slice abiActionTy)) o4 d4 (w4.resolve_left (fun h => nomatch h.1)) c4 ((counted_iff h4 rep_action_layout b4).2 p4)
  obtain ⟨y5, s5, r5⟩ := field_reads (t := (.slice abiTableTy)) o5 d5 (w5.resolve_left (fun h => nomatch h.1)) c5 ((counted_iff h5 rep_table_layout b5).2 p5)
  obtain ⟨y6, s6, r6⟩ := field_reads (t := (.slice abiClauseTy)) o6 d6 (w6.resolve_left (fun h => nomatch h.1)) c6 ((counted_iff h6 rep_clause_layout b6).2 p6)
  obtain ⟨y7, s7, r7⟩ := field_reads (t := (.slice abiErrorMessageTy)) o7 d7 (w7.resolve_left (fun h => nomatch h.1)) c7 ((counted_iff h7 rep_error_layout b7).2 p7)
  obtain ⟨y8, s8, r8⟩ := field_reads (t := (.slice (.ptr abiExtensionTy))) o8 d8 (w8.resolve_left (fun h => nomatch h.1)) c8 ((counted_iff h8 rep_extension_layout b8).2 p8)
  have hend : (decode (.struct (.cons .exported .extension (.slice abiVariantTy) .nil)) ((o9, u') : (Ty.slice abiVariantTy).Val × Unit)).run [] =
      .ok (((none, ()) : Option (List abiVariantTy.Val) × Unit), some .eof) [] := rfl
  have e8 := C43_sequence (.slice (.ptr abiExtensionTy)) _ o8 y8 _ _ .eof (b8 ++ []) [] [] (some .eof) (r8 .eof []) hend
  have e7 := C43_sequence (.slice abiErrorMessageTy) _ o7 y7 _ _ .eof (b7 ++ (b8 ++ [])) _ _ (some .eof) (r7 .eof _) e8
  have e6 := C43_sequence (.slice abiClauseTy) _ o6 y6 _ _ .eof (b6 ++ (b7 ++ (b8 ++ []))) _ _ (some .eof) (r6 .eof _) e7
  have e5 := C43_sequence (.slice abiTableTy) _ o5 y5 _ _ .eof (b5 ++ (b6 ++ (b7 ++ (b8 ++ [])))) _ _ (some .eof) (r5 .eof _) e6
  have e4 := C43_sequence (.slice abiActionTy) _ o4 y4 _ _ .eof (b4 ++ (b5 ++ (b6 ++ (b7 ++ (b8 ++ []))))) _ _ (some .eof) (r4 .eof _) e5
  have e3 := C43_sequence (.slice abiStructTy) _ o3 y3 _ _ .eof (b3 ++ (b4 ++ (b5 ++ (b6 ++ (b7 ++ (b8 ++ [])))))) _ _ (some .eof) (r3 .eof _) e4
  have e2 := C43_sequence (.slice abiTypeTy) _ o2 y2 _ _ .eof (b2 ++ (b3 ++ (b4 ++ (b5 ++ (b6 ++ (b7 ++ (b8 ++ []))))))) _ _ (some .eof) (r2 .eof _) e3
  have e1 := C43_sequence (.basic .string) _ o1 y1 _ _ .eof (b1 ++ (b2 ++ (b3 ++ (b4 ++ (b5 ++ (b6 ++ (b7 ++ (b8 ++ [])))))))) _ _ (some .eof) (r1 .eof _) e2
  refine ⟨((y1, y2, y3, y4, y5, y6, y7, y8, none, ()) : GoAbi), ?_, ?_⟩
  · exact abi_same ((x1, x2, x3, x4, x5, x6, x7, x8, none, ()) : GoAbi) ((y1, y2, y3, y4, y5, y6, y7, y8, none, ()) : GoAbi) { a with variants := [] }
      ⟨h1, h2, h3, h4, h5, h6, h7, h8, .nil⟩ ⟨s1, s2, s3, s4, s5, s6, s7, s8, .nil, trivial⟩
  · have e : b1 ++ b2 ++ b3 ++ b4 ++ b5 ++ b6 ++ b7 ++ b8 = b1 ++ (b2 ++ (b3 ++ (b4 ++ (b5 ++ (b6 ++ (b7 ++ (b8 ++ []))))))) := by simp
    rw [e]
    exact e1

/-- A nil pointer among the extensions is an error: such a value has no content and no binary form. -/
theorem C55_nil_extension : (∀ a v, Represents v a → ∀ l, (show GoAbi from v).2.2.2.2.2.2.2.1 = some l → none ∉ l) ∧
    ∃ e out, (encode abiTy (([], none, none, none, none, none, none, some [none], none, ()) : GoAbi)).run = .ok (some e) out := by
  refine ⟨fun a v h l hl hn => ?_, _, _, rfl⟩
  obtain ⟨x1, x2, x3, x4, x5, x6, x7, x8, x9, u⟩ : GoAbi := v
  obtain ⟨_, _, _, _, _, _, _, h8, _⟩ := h
  change x8 = some l at hl
  subst hl
  exact forall2_mem (P := fun x => x ≠ none) (Q := fun _ => True) h8 (fun x y h _ => by obtain ⟨z, rfl, _⟩ := h; simp) (fun _ _ => trivial) none hn rfl

/-- An ABI with something in every section but the tables -/
def fullAbi : Abi where
  version := asc "eosio::abi/1.1"
  types := [⟨asc "acc", asc "name"⟩]
  structs := [⟨asc "hi", [], [⟨asc "who", asc "acc"⟩]⟩]
  actions := [⟨5, asc "hi", []⟩]
  ricardianClauses := [⟨asc "a", asc "b"⟩]
  errorMessages := [⟨7, asc "no"⟩]
  extensions := [⟨1, [2, 3]⟩]
  variants := [⟨asc "v", [asc "hi", asc "name"]⟩]
theorem fullAbi_small : fullAbi.Small := by
  constructor <;> simp [fullAbi, Short, Shorts, asc]
example : ∃ bs, fullAbi.Layout bs ∧ ∀ old, ∃ w, Represents w fullAbi ∧ (decode abiTy old).Reads bs w := by
  obtain ⟨v, h⟩ := (C55_represents fullAbi).1
  obtain ⟨bs, h1, _, h2⟩ := C55_roundtrip fullAbi fullAbi_small v h
  exact ⟨bs, h1, h2⟩
example : ∃ bs, fullAbi.HeadLayout bs ∧ ∀ old, ∃ w, Represents w { fullAbi with variants := [] } ∧ (decode abiTy old).run bs = .ok (w, some .eof) [] := by
  obtain ⟨v, h⟩ := (C55_represents fullAbi).1
  obtain ⟨bs, ⟨hd, _, h1, _⟩, _⟩ := C55_roundtrip fullAbi fullAbi_small v h
  exact ⟨hd, h1, C55_no_variants_violated fullAbi fullAbi_small hd h1⟩

end Verif
