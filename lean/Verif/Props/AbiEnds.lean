import Verif.Lemmas.AbiEnds
import Verif.Props.AbiTakes
import Verif.Props.AbiExt
/-! C89: exactly what Abi.Decode does when the input may end early, for all types. -/
namespace Verif
open Dec

/-- Decode yields v without an error and leaves r, given enough stack, exactly if the type gives v from the input and leaves r. -/
theorem C89_decode (a : Abi) (n : Bytes) (hn : a.NoShort n) (fin : Err) (s : Bytes) (v : AV) (r : Bytes) :
    (∃ N, ∀ fuel, N ≤ fuel → (a.decode fuel n).runE fin s = .ok (v, none) r) ↔ Gives a fin n s v r := by
  obtain ⟨ts, hts⟩ := noShort_resolves hn
  obtain ⟨hr, t, ht⟩ := resolve_ready hts
  simp only [Abi.decode, hts]
  exact ⟨fun ⟨N, h⟩ => (type_ends hr N n t ht _ _ _).1 (h N (Nat.le_refl _)), fun h => gives_run hr h t ht⟩

/-- Decode returns io.EOF and leaves v in the destination, given enough stack, exactly if the type stops there with v; then the input is used up. -/
theorem C89_stops (a : Abi) (n : Bytes) (hn : a.NoShort n) (fin : Err) (s : Bytes) (v : AV) (r : Bytes) :
    (∃ N, ∀ fuel, N ≤ fuel → (a.decode fuel n).runE fin s = .ok (v, some .eof) r) ↔ StopsIn a fin n s v ∧ r = [] := by
  obtain ⟨ts, hts⟩ := noShort_resolves hn
  obtain ⟨hr, t, ht⟩ := resolve_ready hts
  simp only [Abi.decode, hts]
  refine ⟨fun ⟨N, h⟩ => (type_ends hr N n t ht _ _ _).2 (h N (Nat.le_refl _)), ?_⟩
  rintro ⟨h, rfl⟩
  exact stops_run hr h t ht

/-- The same results at any depth of the stack that suffices. -/
theorem C89_sound (a : Abi) (n : Bytes) (hn : a.NoShort n) (fin : Err) (fuel : Nat) (s : Bytes) (v : AV) (r : Bytes) :
    ((a.decode fuel n).runE fin s = .ok (v, none) r → Gives a fin n s v r) ∧ ((a.decode fuel n).runE fin s = .ok (v, some .eof) r → StopsIn a fin n s v ∧ r = []) := by
  obtain ⟨ts, hts⟩ := noShort_resolves hn
  obtain ⟨hr, t, ht⟩ := resolve_ready hts
  simp only [Abi.decode, hts]
  exact type_ends hr fuel n t ht s v r

/-! ## Complete input -/

mutual
theorem accepts_gives {a : Abi} {fin : Err} {n : Bytes} {v : AV} {w : Bytes} : Accepts a n v w → (r : Bytes) → Gives a fin n (w ++ r) v r
  | .absent hs, _ => .absent hs
  | .present hs hp hb, r => .present hs hp (accepts_givesBody hb r _)
  | .plain hs hb, r => .plain hs (accepts_givesBody hb r _)
theorem accepts_givesBody {a : Abi} {fin : Err} {b : Bytes} {arr : Bool} {v : AV} {w : Bytes} : AcceptsBody a b arr v w → (r : Bytes) → (ext : Bool) → GivesBody a fin b arr ext (w ++ r) v r
  | .one hi, r, _ => .one (accepts_givesInner hi r)
  | .many h1 h2 h3 hi, r, _ => by rw [List.append_assoc]; exact .many h1 h2 h3 (accepts_givesItems hi r)
theorem accepts_givesItems {a : Abi} {fin : Err} {b : Bytes} {xs : List AV} {w : Bytes} : AcceptsItems a b xs w → (r : Bytes) → GivesItems a fin b (w ++ r) xs r
  | .nil, _ => .nil
  | .cons hi his, r => by rw [List.append_assoc]; exact .cons (accepts_givesInner hi _) (accepts_givesItems his r)
theorem accepts_givesInner {a : Abi} {fin : Err} {b : Bytes} {v : AV} {w : Bytes} : AcceptsInner a b v w → (r : Bytes) → GivesInner a fin b (w ++ r) v r
  | .alias ha h, r => .alias ha (accepts_gives h r)
  | .struct hf h hg, r => .struct hf (accepts_givesMembers h r) hg
  | .variant hv hi hp h, r => by rw [List.append_assoc]; exact .variant hv hi hp (accepts_gives h r)
  | .builtin hd h, _ => .builtin hd h
  | .hollow hs hf h, _ => .hollow hs hf h
theorem accepts_givesMembers {a : Abi} {fin : Err} {fs : List AbiField} {xs : List (Bytes × AV)} {w : Bytes} : AcceptsMembers a fs xs w → (r : Bytes) → GivesMembers a fin fs (w ++ r) xs r
  | .nil, _ => .nil
  | .cons h hs, r => by rw [List.append_assoc]; exact .cons (accepts_gives h _) (accepts_givesMembers hs r)
end

mutual
theorem gives_suffix {a : Abi} {fin : Err} {n s : Bytes} {v : AV} {r : Bytes} : Gives a fin n s v r → r <:+ s
  | .absent _ => ⟨[0], rfl⟩
  | .present _ _ hb => (givesBody_suffix hb).trans (List.suffix_cons _ _)
  | .plain _ hb => givesBody_suffix hb
theorem givesBody_suffix {a : Abi} {fin : Err} {b : Bytes} {arr ext : Bool} {s : Bytes} {v : AV} {r : Bytes} : GivesBody a fin b arr ext s v r → r <:+ s
  | .one hi => givesInner_suffix hi
  | .many _ _ _ hi => (givesItems_suffix hi).trans (List.suffix_append _ _)
  | .goneOne _ => List.nil_suffix
  | .goneMany _ _ => List.nil_suffix
theorem givesItems_suffix {a : Abi} {fin : Err} {b s : Bytes} {xs : List AV} {r : Bytes} : GivesItems a fin b s xs r → r <:+ s
  | .nil => List.suffix_rfl
  | .cons hi his => (givesItems_suffix his).trans (givesInner_suffix hi)
theorem givesInner_suffix {a : Abi} {fin : Err} {b s : Bytes} {v : AV} {r : Bytes} : GivesInner a fin b s v r → r <:+ s
  | .alias _ h => gives_suffix h
  | .struct _ h _ => givesMembers_suffix h
  | .variant _ _ _ h => (gives_suffix h).trans (List.suffix_append _ _)
  | .builtin _ _ => List.suffix_append _ _
  | .hollow _ _ _ => List.suffix_append _ _
theorem givesMembers_suffix {a : Abi} {fin : Err} {fs : List AbiField} {s : Bytes} {xs : List (Bytes × AV)} {r : Bytes} : GivesMembers a fin fs s xs r → r <:+ s
  | .nil => List.suffix_rfl
  | .cons h hs => (givesMembers_suffix hs).trans (gives_suffix h)
end

mutual
theorem stops_eof {a : Abi} {fin : Err} {n s : Bytes} {v : AV} : StopsIn a fin n s v → fin = .eof
  | .mark h _ => h
  | .present _ _ hb => stopsBody_eof hb
  | .plain _ hb => stopsBody_eof hb
theorem stopsBody_eof {a : Abi} {fin : Err} {b : Bytes} {arr ext : Bool} {s : Bytes} {v : AV} : StopsBody a fin b arr ext s v → fin = .eof
  | .one hi => stopsInner_eof hi
  | .count h _ => h
  | .element _ _ _ h => stopsItems_eof h
theorem stopsItems_eof {a : Abi} {fin : Err} {b : Bytes} {k : Nat} {s : Bytes} : StopsItems a fin b k s → fin = .eof
  | .here h => stopsInner_eof h
  | .later _ h => stopsItems_eof h
theorem stopsInner_eof {a : Abi} {fin : Err} {b s : Bytes} {v : AV} : StopsInner a fin b s v → fin = .eof
  | .alias _ h => stops_eof h
  | .struct _ h => stopsMembers_eof h
  | .index h _ _ => h
  | .chosen _ _ _ h => stops_eof h
  | .builtin h _ _ => h
  | .hollow h _ _ _ => h
theorem stopsMembers_eof {a : Abi} {fin : Err} {fs : List AbiField} {s : Bytes} : StopsMembers a fin fs s → fin = .eof
  | .here h => stops_eof h
  | .later _ h => stopsMembers_eof h
end

/-- Complete, or cut off by the end of the input -/
abbrev Whole (fin : Err) (P : Bytes → Prop) (s r : Bytes) : Prop := (∃ w, s = w ++ r ∧ P w) ∨ fin = .eof ∧ r = []

mutual
theorem gives_whole {a : Abi} {fin : Err} {n s : Bytes} {v : AV} {r : Bytes} : Gives a fin n s v r → Whole fin (Accepts a n v) s r
  | .absent hs => .inl ⟨[0], rfl, .absent hs⟩
  | .present hs hp hb => (givesBody_whole hb).imp (fun ⟨w, e, h⟩ => ⟨_ :: w, by rw [e]; rfl, .present hs hp h⟩) id
  | .plain hs hb => (givesBody_whole hb).imp (fun ⟨w, e, h⟩ => ⟨w, e, .plain hs h⟩) id
theorem givesBody_whole {a : Abi} {fin : Err} {b : Bytes} {arr ext : Bool} {s : Bytes} {v : AV} {r : Bytes} : GivesBody a fin b arr ext s v r → Whole fin (AcceptsBody a b arr v) s r
  | .one hi => (givesInner_whole hi).imp (fun ⟨w, e, h⟩ => ⟨w, e, .one h⟩) id
  | .many h1 h2 h3 hi => (givesItems_whole hi).imp (fun ⟨w, e, h⟩ => ⟨_ ++ w, by rw [e, List.append_assoc], .many h1 h2 h3 h⟩) id
  | .goneOne h => .inr ⟨stopsInner_eof h, rfl⟩
  | .goneMany h _ => .inr ⟨h, rfl⟩
theorem givesItems_whole {a : Abi} {fin : Err} {b s : Bytes} {xs : List AV} {r : Bytes} : GivesItems a fin b s xs r → Whole fin (AcceptsItems a b xs) s r
  | .nil => .inl ⟨[], rfl, .nil⟩
  | .cons hi his => match givesInner_whole hi, givesItems_whole his with
    | .inl ⟨w, e, h⟩, .inl ⟨w', e', h'⟩ => .inl ⟨w ++ w', by rw [e, e', List.append_assoc], .cons h h'⟩
    | .inr ⟨h, e⟩, _ => .inr ⟨h, List.suffix_nil.1 (e ▸ givesItems_suffix his)⟩
    | _, .inr h => .inr h
theorem givesInner_whole {a : Abi} {fin : Err} {b s : Bytes} {v : AV} {r : Bytes} : GivesInner a fin b s v r → Whole fin (AcceptsInner a b v) s r
  | .alias ha h => (gives_whole h).imp (fun ⟨w, e, h⟩ => ⟨w, e, .alias ha h⟩) id
  | .struct hf h hg => (givesMembers_whole h).imp (fun ⟨w, e, h⟩ => ⟨w, e, .struct hf h hg⟩) id
  | .variant hv hi hp h => (gives_whole h).imp (fun ⟨w, e, h⟩ => ⟨_ ++ w, by rw [e, List.append_assoc], .variant hv hi hp h⟩) id
  | .builtin hd h => .inl ⟨_, rfl, .builtin hd h⟩
  | .hollow hs hf h => .inl ⟨_, rfl, .hollow hs hf h⟩
theorem givesMembers_whole {a : Abi} {fin : Err} {fs : List AbiField} {s : Bytes} {xs : List (Bytes × AV)} {r : Bytes} : GivesMembers a fin fs s xs r → Whole fin (AcceptsMembers a fs xs) s r
  | .nil => .inl ⟨[], rfl, .nil⟩
  | .cons h hs => match gives_whole h, givesMembers_whole hs with
    | .inl ⟨w, e, h⟩, .inl ⟨w', e', h'⟩ => .inl ⟨w ++ w', by rw [e, e', List.append_assoc], .cons h h'⟩
    | .inr ⟨h, e⟩, _ => .inr ⟨h, List.suffix_nil.1 (e ▸ givesMembers_suffix hs)⟩
    | _, .inr h => .inr h
end

/-- A complete byte string is read as what it stands for, whatever follows and whether or not the type has extensions. -/
theorem C89_complete (a : Abi) (n : Bytes) (hn : a.NoShort n) (fin : Err) (v : AV) (w r : Bytes) (h : Accepts a n v w) :
    ∃ N, ∀ fuel, N ≤ fuel → (a.decode fuel n).runE fin (w ++ r) = .ok (v, none) r :=
  (C89_decode a n hn fin (w ++ r) v r).2 (accepts_gives h r)

/-- Anything else that is returned without an error has used up an input that ends with io.EOF. -/
theorem C89_only_at_end (a : Abi) (n : Bytes) (hn : a.NoShort n) (fin : Err) (fuel : Nat) (s : Bytes) (v : AV) (r : Bytes) (h : (a.decode fuel n).runE fin s = .ok (v, none) r) :
    (∃ w, s = w ++ r ∧ Accepts a n v w) ∨ fin = .eof ∧ r = [] :=
  gives_whole ((C89_sound a n hn fin fuel s v r).1 h)

/-- From a source that ends with another error exactly the complete byte strings are read; extensions have to be there too. -/
theorem C89_broken_source (a : Abi) (n : Bytes) (hn : a.NoShort n) (fin : Err) (hf : fin ≠ .eof) (s : Bytes) (v : AV) (r : Bytes) :
    (∃ N, ∀ fuel, N ≤ fuel → (a.decode fuel n).runE fin s = .ok (v, none) r) ↔ ∃ w, s = w ++ r ∧ Accepts a n v w := by
  constructor
  · rintro ⟨N, h⟩
    exact (C89_only_at_end a n hn fin N s v r (h N (Nat.le_refl _))).resolve_right fun h => hf h.1
  · rintro ⟨w, rfl, h⟩
    exact C89_complete a n hn fin v w r h

/-! ## What a cut extension decodes as -/

/-- An asset that is an extension and is cut off after its amount decodes without an error as this amount with the symbol 0; a public key that is cut off after its type as a key of zeros. -/
theorem C89_half_violated (a : Abi) (n : Bytes) :
    (Spelled n (asc "asset") false true false → NotDefined a (asc "asset") → ∀ (x : Int64) (s : Bytes), LeFormI 8 x.toInt s →
      ∃ N, ∀ fuel, N ≤ fuel → (a.decode fuel n).run s = .ok (.chain .asset (⟨x, 0⟩ : Asset), none) []) ∧
    (Spelled n (asc "public_key") false true false → NotDefined a (asc "public_key") → ∀ t : UInt8, t = 0 ∨ t = 1 →
      ∃ N, ∀ fuel, N ≤ fuel → (a.decode fuel n).run [t] = .ok (.chain .publicKey (⟨t, List.replicate 33 0⟩ : PubKey), none) []) := by
  constructor
  · intro hs hd x s hx
    exact (C89_decode a n (resolve_undefined hs hd) .eof s _ []).2 (.plain hs (.goneOne (.builtin rfl hd (.chain (by decide +kernel) (.inr ⟨hx, rfl⟩)))))
  · intro hs hd t ht
    exact (C89_decode a n (resolve_undefined hs hd) .eof [t] _ []).2 (.plain hs (.goneOne (.builtin rfl hd (.chain (by decide +kernel) (.inr (.inl ⟨ht, rfl, rfl⟩))))))

/-! ## Examples -/

theorem bare_asset : Bare (asc "asset") := ⟨by decide, by decide, by decide, by decide⟩
theorem bare_key : Bare (asc "public_key") := ⟨by decide, by decide, by decide, by decide⟩
example : Spelled (asc "asset$") (asc "asset") false true false ∧ NotDefined {} (asc "asset") ∧ LeFormI 8 (Int64.toInt 10000) [16, 39, 0, 0, 0, 0, 0, 0] :=
  ⟨spelled_of _ bare_asset false true false, ⟨⟨by simp [NoStruct], by simp⟩, by simp⟩, by decide, by decide⟩
example : Spelled (asc "public_key$") (asc "public_key") false true false ∧ NotDefined {} (asc "public_key") :=
  ⟨spelled_of _ bare_key false true false, ⟨⟨by simp [NoStruct], by simp⟩, by simp⟩⟩
example : (Abi.decode {} 1 (asc "asset$")).run [16, 39, 0, 0, 0, 0, 0, 0] = .ok (.chain .asset (⟨10000, 0⟩ : Asset), none) [] := rfl

/-- A struct that ends with extensions: all there, one missing, both missing, cut within the first extension. -/
def endsAbi : Abi := { structs := [⟨asc "row", [], [⟨asc "k", asc "uint8"⟩, ⟨asc "p", asc "asset$"⟩, ⟨asc "q", asc "uint8[]$"⟩]⟩] }
example : endsAbi.NoShort (asc "row") := noShort_of (by decide +kernel)
def endsAsset : Bytes := [16, 39, 0, 0, 0, 0, 0, 0, 4, 69, 79, 83, 0, 0, 0, 0]
def endsRow (p : Asset) (q : AV) : AV := .map [(asc "k", .basic .u8 (7 : UInt8)), (asc "p", .chain .asset p), (asc "q", q)]
example : Gives endsAbi .eof (asc "row") (7 :: (endsAsset ++ [1, 5, 9])) (endsRow ⟨10000, 0x534f4504⟩ (.slice [.basic .u8 (5 : UInt8)])) [9] :=
  (C89_sound endsAbi (asc "row") (noShort_of (by decide +kernel)) .eof 3 _ _ _).1 rfl
example : Gives endsAbi .eof (asc "row") (7 :: endsAsset) (endsRow ⟨10000, 0x534f4504⟩ .nil) [] :=
  (C89_sound endsAbi (asc "row") (noShort_of (by decide +kernel)) .eof 3 _ _ _).1 rfl
example : Gives endsAbi .eof (asc "row") [7] (endsRow ⟨0, 0⟩ .nil) [] :=
  (C89_sound endsAbi (asc "row") (noShort_of (by decide +kernel)) .eof 3 _ _ _).1 rfl
example : Gives endsAbi .eof (asc "row") (7 :: endsAsset.take 8) (endsRow ⟨10000, 0⟩ .nil) [] :=
  (C89_sound endsAbi (asc "row") (noShort_of (by decide +kernel)) .eof 3 _ _ _).1 rfl
/-- The second element of an array is missing, and the first field of a struct -/
example : StopsIn endsAbi .eof (asc "row") (7 :: (endsAsset ++ [2, 5])) .nil ∧ StopsIn endsAbi .eof (asc "row") [] .nil :=
  ⟨((C89_sound endsAbi (asc "row") (noShort_of (by decide +kernel)) .eof 3 _ _ []).2 rfl).1,
    ((C89_sound endsAbi (asc "row") (noShort_of (by decide +kernel)) .eof 3 _ _ []).2 rfl).1⟩
/-- A source that breaks off -/
example : (endsAbi.decode 3 (asc "row")).runE (.io 5) [7] = .ok (.nil, some (.io 5)) [] := rfl

end Verif
