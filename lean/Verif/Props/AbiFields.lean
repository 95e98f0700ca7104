import Verif.Props.AbiCodec
import Verif.Lemmas.AbiJsonDecode
/-! # C48: decoding structs, also with several fields of one name -/
namespace Verif

theorem mapPut_entry (k : Bytes) (v : AV) (k' : Bytes) (x : AV) : (m : List (Bytes × AV)) → (m.map Prod.fst).Nodup → ((k', x) ∈ mapPut m k v ↔ (k' = k ∧ x = v) ∨ (k' ≠ k ∧ (k', x) ∈ m))
  | [], _ => by simp [mapPut]
  | (k₀, v₀) :: m, h => by
    obtain ⟨h1, h2⟩ := List.nodup_cons.1 h
    unfold mapPut
    split
    · rename_i e
      subst e
      simp only [List.mem_cons, Prod.mk.injEq]
      constructor
      · rintro (h | h)
        · exact .inl h
        · exact .inr ⟨fun e => h1 (List.mem_map.2 ⟨(k', x), h, e⟩), .inr h⟩
      · rintro (h | ⟨h, h' | h'⟩)
        · exact .inl h
        · exact absurd h'.1 h
        · exact .inr h'
    · rename_i e
      rw [List.mem_cons, mapPut_entry k v k' x m h2, List.mem_cons]
      simp only [Prod.mk.injEq]
      constructor
      · rintro (⟨rfl, rfl⟩ | h | ⟨h, h'⟩)
        · exact .inr ⟨e, .inl ⟨rfl, rfl⟩⟩
        · exact .inl h
        · exact .inr ⟨h, .inr h'⟩
      · rintro (h | ⟨h, h' | h'⟩)
        · exact .inr (.inl h)
        · exact .inl h'
        · exact .inr (.inr ⟨h, h'⟩)

/-- A field, its value and its bytes -/
structure FieldRead where
  field : AbiField
  value : AV
  bytes : Bytes

/-- The last field of the name counts. -/
def LastOf (l : List FieldRead) (k : Bytes) (x : AV) : Prop := ∃ pre e post, l = pre ++ e :: post ∧ e.field.name = k ∧ e.value = x ∧ ∀ d ∈ post, d.field.name ≠ k

theorem lastOf_cons (e : FieldRead) (l : List FieldRead) (k : Bytes) (x : AV) : LastOf (e :: l) k x ↔ LastOf l k x ∨ (e.field.name = k ∧ e.value = x ∧ ∀ d ∈ l, d.field.name ≠ k) := by
  constructor
  · rintro ⟨pre, e', post, h, h1, h2, h3⟩
    cases pre with
    | nil => obtain ⟨rfl, rfl⟩ := List.cons.inj h; exact .inr ⟨h1, h2, h3⟩
    | cons p pre => obtain ⟨rfl, rfl⟩ := List.cons.inj h; exact .inl ⟨pre, e', post, rfl, h1, h2, h3⟩
  · rintro (⟨pre, e', post, rfl, h⟩ | ⟨h1, h2, h3⟩)
    · exact ⟨e :: pre, e', post, rfl, h⟩
    · exact ⟨[], e, l, rfl, h1, h2, h3⟩
theorem lastOf_name {l : List FieldRead} {k : Bytes} {x : AV} (h : LastOf l k x) : ∃ d ∈ l, d.field.name = k := by
  obtain ⟨pre, e, post, rfl, h1, _⟩ := h
  exact ⟨e, by simp, h1⟩

theorem struct_reads {a : Abi} {ts : Types} (hr : Ready a ts) : (l : List FieldRead) → (∀ e ∈ l, ∃ u, ts.get e.field.type = some u) →
    (∀ e ∈ l, Wire a DecodesAs true e.field.type e.value e.bytes) → (acc : List (Bytes × AV)) → (acc.map Prod.fst).Nodup →
    ∃ m, ReadsEv (fun fuel => decodeStruct (decodeTypeF ts fuel) (fieldPairs (l.map FieldRead.field)) acc) (l.map FieldRead.bytes).flatten (.map m) ∧ (m.map Prod.fst).Nodup ∧
      ∀ k x, (k, x) ∈ m ↔ LastOf l k x ∨ ((k, x) ∈ acc ∧ ∀ d ∈ l, d.field.name ≠ k)
  | [], _, _, acc, hn => ⟨acc, .const (.pure _), hn, fun k x => ⟨fun h => .inr ⟨h, fun _ h => nomatch h⟩, fun h => h.elim (fun ⟨pre, _, _, e, _⟩ => by simp at e) And.left⟩⟩
  | e :: l, hk, hw, acc, hn => by
    obtain ⟨u, hu⟩ := hk e List.mem_cons_self
    obtain ⟨N, h1⟩ := wire_decode hr (fun _ _ _ => decodesAs_decodes) (hw e List.mem_cons_self) u hu
    obtain ⟨m, ⟨M, h2⟩, h3, h4⟩ := struct_reads hr l (fun d hd => hk d (List.mem_cons_of_mem _ hd)) (fun d hd => hw d (List.mem_cons_of_mem _ hd)) (mapPut acc e.field.name e.value)
      (mapPut_nodup _ _ acc hn)
    refine ⟨m, ⟨N + M, fun fuel hf => ?_⟩, h3, fun k x => ?_⟩
    · exact Dec.Reads.bind (h1 fuel (by omega)) (h2 fuel (by omega))
    · rw [h4, lastOf_cons, mapPut_entry _ _ _ _ acc hn, List.forall_mem_cons]
      constructor
      · rintro (h | ⟨⟨rfl, rfl⟩ | ⟨h, h'⟩, hd⟩)
        · exact .inl (.inl h)
        · exact .inl (.inr ⟨rfl, rfl, hd⟩)
        · exact .inr ⟨h', Ne.symm h, hd⟩
      · rintro ((h | ⟨h, h', hd⟩) | ⟨h, h', hd⟩)
        · exact .inl h
        · exact .inr ⟨.inl ⟨h.symm, h'.symm⟩, hd⟩
        · exact .inr ⟨.inr ⟨Ne.symm h', h⟩, hd⟩

/-- C48: Decode reads the fields one after the other, in the order of C48_fields, into a map with one entry for each name; of fields with the same name (a struct may
repeat one of its base) the last one counts. -/
theorem C48_decode (a : Abi) (n b : Bytes) (ext : Bool) (hn : a.NoShort n) (hs : Spelled n b false ext false) (l : List FieldRead) (hne : l ≠ []) (hf : FieldsOf a b (l.map FieldRead.field))
    (hw : ∀ e ∈ l, Wire a DecodesAs true e.field.type e.value e.bytes) :
    ∃ m, a.Reads n (l.map FieldRead.bytes).flatten (.map m) ∧ (m.map Prod.fst).Nodup ∧ ∀ k x, (k, x) ∈ m ↔ LastOf l k x := by
  obtain ⟨ts, hts⟩ := noShort_resolves hn
  obtain ⟨hr, t, ht⟩ := resolve_ready hts
  have hsp := spelled_unique hs (hr n t ht).1.2.1
  cases l with
  | nil => exact absurd rfl hne
  | cons e l =>
    have hb : b = t.baseName := hsp.1
    rw [hb] at hf
    obtain ⟨h1, h2, h3⟩ := table_struct hr ht hf
    obtain ⟨m, ⟨N, h4⟩, h5, h6⟩ := struct_reads hr (e :: l) (fun d hd => h3 d.field (List.mem_map.2 ⟨d, hd, rfl⟩)) hw [] List.nodup_nil
    refine ⟨m, ⟨N + 1, fun fuel hfu => ?_⟩, h5, fun k x => (h6 k x).trans (or_iff_left fun h => nomatch h.1)⟩
    cases fuel with
    | zero => omega
    | succ fuel =>
      unfold Abi.decode
      rw [hts]
      show (decodeTypeF ts (fuel + 1) n).Reads _ _
      unfold decodeTypeF
      rw [ht]
      simp only
      rw [← hsp.2.2.2]
      simp only [Bool.false_eq_true, if_false]
      refine decodeBody_plain hr (fun _ _ _ => decodesAs_decodes) hsp.2.1.symm ?_
      unfold decodeInner
      rw [h1, h2]
      simp only
      rw [if_pos (by simp [fieldPairs])]
      exact h4 fuel (by omega)

/-- A derived struct that repeats the name of a field of its base -/
def shadowAbi : Abi := { structs := [⟨asc "kid", asc "base", [⟨asc "x", asc "uint8"⟩]⟩, ⟨asc "base", [], [⟨asc "x", asc "bool"⟩, ⟨asc "y", asc "bool"⟩]⟩] }
example : FieldsOf shadowAbi (asc "kid") [⟨asc "x", asc "bool"⟩, ⟨asc "y", asc "bool"⟩, ⟨asc "x", asc "uint8"⟩] :=
  .derived (s := ⟨asc "kid", asc "base", [⟨asc "x", asc "uint8"⟩]⟩) ((getStruct_iff ..).1 (by decide)) (by decide) ((parse_spelled (asc "base") (asc "base") false false false).1 (by decide))
    (.root (s := ⟨asc "base", [], [⟨asc "x", asc "bool"⟩, ⟨asc "y", asc "bool"⟩]⟩) ((getStruct_iff ..).1 (by decide)) rfl)
example : (shadowAbi.decode 3 (asc "kid")).run [1, 0, 7] = .ok (.map [(asc "x", .basic .u8 (7 : UInt8)), (asc "y", .basic .bool false)], none) [] := rfl
example : LastOf [⟨⟨asc "x", asc "bool"⟩, .basic .bool true, [1]⟩, ⟨⟨asc "y", asc "bool"⟩, .basic .bool false, [0]⟩, ⟨⟨asc "x", asc "uint8"⟩, .basic .u8 (7 : UInt8), [7]⟩] (asc "x") (.basic .u8 (7 : UInt8)) :=
  ⟨[⟨⟨asc "x", asc "bool"⟩, .basic .bool true, [1]⟩, ⟨⟨asc "y", asc "bool"⟩, .basic .bool false, [0]⟩], ⟨⟨asc "x", asc "uint8"⟩, .basic .u8 (7 : UInt8), [7]⟩, [], rfl, rfl, rfl,
    fun _ h => nomatch h⟩

end Verif
