import Verif.Lemmas.Keys
/-! # Public keys and signatures: C33-C35, C63 -/
namespace Verif

theorem keyName_string (t : UInt8) (n : Bytes) (h : KeyName t n) : keyTypeString t = n ∧ parseKeyType n = some t ∧ n.length = 2 := by
  cases h <;> decide

theorem keyName_of_parse (n : Bytes) (t : UInt8) (h : parseKeyType n = some t) : KeyName t n := by
  unfold parseKeyType at h
  split at h
  · cases h; rename_i h; rw [eq_of_beq h]; exact .k1
  · split at h
    · cases h; rename_i h; rw [eq_of_beq h]; exact .p1
    · split at h
      · cases h; rename_i h; rw [eq_of_beq h]; exact .wa
      · cases h

theorem keyName_le (t : UInt8) (h : t.toNat ≤ 2) : ∃ n, KeyName t n := by
  have : t = 0 ∨ t = 1 ∨ t = 2 := by
    rcases (show t.toNat = 0 ∨ t.toNat = 1 ∨ t.toNat = 2 by omega) with e | e | e
    · exact .inl (UInt8.toNat_inj.1 e)
    · exact .inr (.inl (UInt8.toNat_inj.1 e))
    · exact .inr (.inr (UInt8.toNat_inj.1 e))
  rcases this with rfl | rfl | rfl
  · exact ⟨_, .k1⟩
  · exact ⟨_, .p1⟩
  · exact ⟨_, .wa⟩

/-- base58.Decode by cases. -/
theorem b58Decode_cases (s : Bytes) :
    (∃ d, Base58Text s d ∧ b58Decode s = .val d) ∨ (¬ Base58String s ∧ ¬ Base58Bad s ∧ b58Decode s = .val []) ∨ (¬ Base58String s ∧ Base58Bad s ∧ ∃ w, b58Decode s = .panic w) := by
  rcases C30_cases s with h | ⟨pre, c, post, rfl, h1, h2⟩
  · obtain ⟨d, hd⟩ := b58String_text s h
    exact .inl ⟨d, hd, b58Decode_text s d hd⟩
  · have hn : ¬ Base58String (pre ++ c :: post) := fun h => h2 fun x hx => h x (by simp at hx; simp [hx])
    have hp := C30_other_partial pre c post h1 h2
    by_cases hc : c.toNat < 128 ∨ LatinStart ((c :: post).take (10 - pre.length % 10))
    · refine .inr (.inl ⟨hn, ?_, hp.1 hc⟩)
      rintro ⟨pre', c', post', e, g1, g2, g3, g4⟩
      have hq := (C30_other_partial pre' c' post' g1 g2).2 g3 g4
      rw [← e, hp.1 hc] at hq
      obtain ⟨w, hw⟩ := hq
      cases hw
    · refine .inr (.inr ⟨hn, ⟨pre, c, post, rfl, h1, h2, by omega, fun h => hc (.inr h)⟩, hp.2 (by omega) fun h => hc (.inr h)⟩)

theorem b58Text_not_bad (s d : Bytes) (h : Base58Text s d) : ¬ Base58Bad s := by
  intro hb
  rcases b58Decode_cases s with ⟨d', _, e⟩ | ⟨h1, _⟩ | ⟨h1, _⟩
  · obtain ⟨pre, c, post, rfl, h1, h2, h3, h4⟩ := hb
    obtain ⟨w, hw⟩ := (C30_other_partial pre c post h1 h2).2 h3 h4
    rw [e] at hw; cases hw
  · exact h1 (b58Text_string s d h)
  · exact h1 (b58Text_string s d h)

theorem base58Text_inj (s d d' : Bytes) (h : Base58Text s d) (h' : Base58Text s d') : d = d' := by
  have e := b58Decode_text s d h
  rw [b58Decode_text s d' h'] at e
  cases e; rfl

theorem append4_inj (a b x y : Bytes) (hx : x.length = 4) (hy : y.length = 4) (h : a ++ x = b ++ y) : a = b ∧ x = y :=
  List.append_inj' h (by omega)

/-- CheckDecodeEosio: exactly when it succeeds and when it panics. -/
theorem checkDecodeEosio_cases (s n : Bytes) :
    (∃ data, CheckedText n data s ∧ b58CheckDecodeEosio s n = .val (data, none)) ∨
    ((∀ data, ¬ CheckedText n data s) ∧ ¬ Base58Bad s ∧ ∃ e, b58CheckDecodeEosio s n = .val ([], some e)) ∨
    ((∀ data, ¬ CheckedText n data s) ∧ Base58Bad s ∧ ∃ w, b58CheckDecodeEosio s n = .panic w) := by
  rcases b58Decode_cases s with ⟨d, hd, e⟩ | ⟨h1, h2, e⟩ | ⟨h1, h2, w, e⟩
  · rcases C32_decode_eosio s d n e with ⟨hl, h⟩ | ⟨p, rfl, h⟩ | ⟨_, hp, h⟩
    · refine .inr (.inl ⟨?_, b58Text_not_bad s d hd, _, h⟩)
      intro data hc
      have := base58Text_inj _ _ _ hd hc
      rw [this] at hl
      simp [digest_length] at hl
    · exact .inl ⟨p, hd, h⟩
    · refine .inr (.inl ⟨?_, b58Text_not_bad s d hd, _, h⟩)
      intro data hc
      exact hp data (base58Text_inj _ _ _ hd hc)
  · refine .inr (.inl ⟨fun data hc => h1 (b58Text_string _ _ hc), h2, errInvalidFormat, ?_⟩)
    unfold b58CheckDecodeEosio; rw [e]; rfl
  · refine .inr (.inr ⟨fun data hc => h1 (b58Text_string _ _ hc), h2, w, ?_⟩)
    unfold b58CheckDecodeEosio; rw [e]

/-- CheckDecode: exactly when it succeeds and when it panics. -/
theorem checkDecode_cases (sha : Sha256) (s : Bytes) :
    (∃ data, LegacyBody sha.sum data s ∧ b58CheckDecode sha s = .val (data, none)) ∨
    ((∀ data, ¬ LegacyBody sha.sum data s) ∧ ¬ Base58Bad s ∧ ∃ e, b58CheckDecode sha s = .val ([], some e)) ∨
    ((∀ data, ¬ LegacyBody sha.sum data s) ∧ Base58Bad s ∧ ∃ w, b58CheckDecode sha s = .panic w) := by
  rcases b58Decode_cases s with ⟨d, hd, e⟩ | ⟨h1, h2, e⟩ | ⟨h1, h2, w, e⟩
  · rcases C32_decode sha s d e with ⟨hl, h⟩ | ⟨p, rfl, h⟩ | ⟨_, hp, h⟩
    · refine .inr (.inl ⟨?_, b58Text_not_bad s d hd, _, h⟩)
      intro data hc
      have := base58Text_inj _ _ _ hd hc
      rw [this] at hl
      simp [sha.len] at hl
    · exact .inl ⟨p, hd, h⟩
    · refine .inr (.inl ⟨?_, b58Text_not_bad s d hd, _, h⟩)
      intro data hc
      exact hp data (base58Text_inj _ _ _ hd hc)
  · refine .inr (.inl ⟨fun data hc => h1 (b58Text_string _ _ hc), h2, errInvalidFormat, ?_⟩)
    unfold b58CheckDecode; rw [e]; rfl
  · refine .inr (.inr ⟨fun data hc => h1 (b58Text_string _ _ hc), h2, w, ?_⟩)
    unfold b58CheckDecode; rw [e]

theorem checkEncodeEosio_text (data n : Bytes) : ∃ body, b58CheckEncodeEosio data n = .val body ∧ CheckedText n data body := by
  obtain ⟨s, h1, h2⟩ := b58Encode_text (data ++ (RipemdSpec.digest (data ++ n)).take 4)
  exact ⟨s, by unfold b58CheckEncodeEosio; simp only [checksumEosio_spec]; exact h1, h2⟩

theorem split_text (pre n : Bytes) (c : UInt8) (body : Bytes) (hp : pre.length = 4) (hn : n.length = 2) :
    (pre ++ n ++ [c] ++ body).take 4 = pre ∧ ((pre ++ n ++ [c] ++ body).drop 4).take 2 = n ∧ (pre ++ n ++ [c] ++ body).drop 7 = body := by
  refine ⟨?_, ?_, ?_⟩
  · rw [List.append_assoc, List.append_assoc, List.take_left' hp]
  · rw [List.append_assoc, List.append_assoc, List.drop_left' hp, List.take_left' hn]
  · rw [List.drop_left' (by simp; omega)]

theorem join_text (s : Bytes) (h : 7 ≤ s.length) : ∃ c, s = s.take 4 ++ (s.drop 4).take 2 ++ [c] ++ s.drop 7 := by
  match s, h with
  | a :: b :: c :: d :: e :: f :: g :: t, _ => exact ⟨g, rfl⟩

/-! ## Public keys: text -/

/-- C33: String of a key of type K1, P1 or WA is "PUB_", the type's name, "_" and the Base58 text with the RIPEMD-160 checksum over data and type name. -/
theorem C33_text (pk : PubKey) (n : Bytes) (h : KeyName pk.type n) :
    ∃ body, pk.string = .val (asc "PUB_" ++ n ++ asc "_" ++ body) ∧ CheckedText n pk.data body := by
  obtain ⟨body, h1, h2⟩ := checkEncodeEosio_text pk.data n
  refine ⟨body, ?_, h2⟩
  unfold PubKey.string
  rw [(keyName_string _ _ h).1, h1]

/-- C33: what NewPublicKeyFromString does with a string starting with "PUB_". The character after the type name is not looked at. -/
theorem C33_parse (sha : Sha256) (n : Bytes) (t : UInt8) (c : UInt8) (body : Bytes) (h : KeyName t n) :
    (∃ data, CheckedText n data body ∧ newPublicKeyFromString sha (asc "PUB_" ++ n ++ [c] ++ body) = .val (some ⟨t, data⟩, none)) ∨
    ((∀ data, ¬ CheckedText n data body) ∧ ¬ Base58Bad body ∧ ∃ k e, newPublicKeyFromString sha (asc "PUB_" ++ n ++ [c] ++ body) = .val (k, some e)) ∨
    ((∀ data, ¬ CheckedText n data body) ∧ Base58Bad body ∧ ∃ w, newPublicKeyFromString sha (asc "PUB_" ++ n ++ [c] ++ body) = .panic w) := by
  obtain ⟨e1, e2, e3⟩ := keyName_string _ _ h
  obtain ⟨s1, s2, s3⟩ := split_text (asc "PUB_") n c body rfl e3
  have hl : ¬ (asc "PUB_" ++ n ++ [c] ++ body).length < 7 := by simp [e3, asc]; omega
  unfold newPublicKeyFromString
  rw [if_neg hl, s1, if_pos (by simp), s2, e2]
  dsimp only
  rw [s3, e1]
  rcases checkDecodeEosio_cases body n with ⟨d, h1, h2⟩ | ⟨h1, h2, e, h3⟩ | ⟨h1, h2, w, h3⟩
  · exact .inl ⟨d, h1, by rw [h2]⟩
  · exact .inr (.inl ⟨h1, h2, some ⟨t, []⟩, e, by rw [h3]⟩)
  · exact .inr (.inr ⟨h1, h2, w, by rw [h3]⟩)

/-- C33: NewPublicKeyFromString inverts String for every key of type K1, P1, WA, whatever its data. -/
theorem C33_roundtrip (sha : Sha256) (pk : PubKey) (h : pk.type.toNat ≤ 2) :
    ∃ s, pk.string = .val s ∧ newPublicKeyFromString sha s = .val (some pk, none) ∧ ∀ old, PubKey.unmarshalText sha old s = .val (pk, none) := by
  obtain ⟨n, hn⟩ := keyName_le _ h
  obtain ⟨body, h1, h2⟩ := C33_text pk n hn
  have key : newPublicKeyFromString sha (asc "PUB_" ++ n ++ asc "_" ++ body) = .val (some pk, none) := by
    rcases C33_parse sha n pk.type 95 body hn with ⟨d, g1, g2⟩ | ⟨g1, _⟩ | ⟨g1, _⟩
    · have := base58Text_inj _ _ _ h2 g1
      have hd : pk.data = d := (append4_inj _ _ _ _ (by simp [digest_length]) (by simp [digest_length]) this).1
      rw [← hd] at g2
      exact g2
    · exact absurd h2 (g1 _)
    · exact absurd h2 (g1 _)
  refine ⟨_, h1, key, fun old => ?_⟩
  unfold PubKey.unmarshalText
  rw [key]

/-- C33: exactly the strings NewPublicKeyFromString accepts, and the key it returns. -/
theorem C33_accepts (sha : Sha256) (s : Bytes) (k : Option PubKey) :
    newPublicKeyFromString sha s = .val (k, none) ↔
    (∃ t n c body data, KeyName t n ∧ s = asc "PUB_" ++ n ++ [c] ++ body ∧ CheckedText n data body ∧ k = some ⟨t, data⟩) ∨
    (¬ asc "PUB_" <+: s ∧ ∃ pre body data, s = pre ++ body ∧ body.length = 50 ∧ LegacyBody sha.sum data body ∧ k = some ⟨0, data⟩) := by
  constructor
  · intro h
    by_cases hl : s.length < 7
    · unfold newPublicKeyFromString at h; rw [if_pos hl] at h; cases h
    · by_cases hp : s.take 4 = asc "PUB_"
      · obtain ⟨c, hs⟩ := join_text s (by omega)
        cases ht : parseKeyType ((s.drop 4).take 2) with
        | none =>
          unfold newPublicKeyFromString at h
          rw [if_neg hl, hp, if_pos (by simp), ht] at h
          cases h
        | some t =>
          left
          have hn := keyName_of_parse _ _ ht
          rw [hp] at hs
          rcases C33_parse sha _ t c (s.drop 7) hn with ⟨d, g1, g2⟩ | ⟨_, _, k', e, g2⟩ | ⟨_, _, w, g2⟩
          · rw [← hs, h] at g2
            cases g2
            exact ⟨t, _, c, _, d, hn, hs, g1, rfl⟩
          · rw [← hs, h] at g2; cases g2
          · rw [← hs, h] at g2; cases g2
      · right
        refine ⟨fun hpre => hp ?_, ?_⟩
        · obtain ⟨r, hr⟩ := hpre
          rw [← hr]; exact List.take_left' rfl
        · unfold newPublicKeyFromString at h
          rw [if_neg hl, if_neg (by simpa using hp)] at h
          by_cases h50 : s.length < 50
          · rw [if_pos h50] at h; cases h
          · rw [if_neg h50] at h
            refine ⟨s.take (s.length - 50), s.drop (s.length - 50), ?_⟩
            rcases checkDecode_cases sha (s.drop (s.length - 50)) with ⟨d, g1, g2⟩ | ⟨_, _, e, g2⟩ | ⟨_, _, w, g2⟩
            · rw [g2] at h
              simp only [Pan.val.injEq, Prod.mk.injEq, and_true] at h
              exact ⟨d, (List.take_append_drop _ _).symm, by simp; omega, g1, h.symm⟩
            · rw [g2] at h; cases h
            · rw [g2] at h; cases h
  · rintro (⟨t, n, c, body, data, hn, rfl, hc, rfl⟩ | ⟨hp, pre, body, data, rfl, hb, hc, rfl⟩)
    · rcases C33_parse sha n t c body hn with ⟨d, g1, g2⟩ | ⟨g1, _⟩ | ⟨g1, _⟩
      · have := base58Text_inj _ _ _ hc g1
        have hd : data = d := (append4_inj _ _ _ _ (by simp [digest_length]) (by simp [digest_length]) this).1
        rw [hd]; exact g2
      · exact absurd hc (g1 _)
      · exact absurd hc (g1 _)
    · have hp' : ¬ ((pre ++ body).take 4 == asc "PUB_") = true := by
        intro h
        apply hp
        rw [← eq_of_beq h]
        exact List.take_prefix _ _
      unfold newPublicKeyFromString
      rw [if_neg (by simp; omega), if_neg hp', if_neg (by simp; omega)]
      have : (pre ++ body).drop ((pre ++ body).length - 50) = body := List.drop_left' (by simp; omega)
      rw [this]
      rcases checkDecode_cases sha body with ⟨d, g1, g2⟩ | ⟨g1, _⟩ | ⟨g1, _⟩
      · have := base58Text_inj _ _ _ hc g1
        have hd : data = d := (append4_inj _ _ _ _ (by simp [sha.len]) (by simp [sha.len]) this).1
        rw [g2, hd]
      · exact absurd hc (g1 _)
      · exact absurd hc (g1 _)

/-- C33: exactly the strings on which NewPublicKeyFromString panics. -/
theorem C33_panics_partial (sha : Sha256) (s : Bytes) :
    (∃ w, newPublicKeyFromString sha s = .panic w) ↔
    (∃ t n c body, KeyName t n ∧ s = asc "PUB_" ++ n ++ [c] ++ body ∧ Base58Bad body) ∨
    (¬ asc "PUB_" <+: s ∧ ((7 ≤ s.length ∧ s.length < 50) ∨ ∃ pre body, s = pre ++ body ∧ body.length = 50 ∧ Base58Bad body)) := by
  constructor
  · rintro ⟨w, h⟩
    by_cases hl : s.length < 7
    · unfold newPublicKeyFromString at h; rw [if_pos hl] at h; cases h
    · by_cases hp : s.take 4 = asc "PUB_"
      · obtain ⟨c, hs⟩ := join_text s (by omega)
        cases ht : parseKeyType ((s.drop 4).take 2) with
        | none =>
          unfold newPublicKeyFromString at h
          rw [if_neg hl, hp, if_pos (by simp), ht] at h
          cases h
        | some t =>
          left
          have hn := keyName_of_parse _ _ ht
          rw [hp] at hs
          rcases C33_parse sha _ t c (s.drop 7) hn with ⟨d, g1, g2⟩ | ⟨_, _, k', e, g2⟩ | ⟨_, hb, w, g2⟩
          · rw [← hs, h] at g2; cases g2
          · rw [← hs, h] at g2; cases g2
          · exact ⟨t, _, c, _, hn, hs, hb⟩
      · right
        refine ⟨fun hpre => hp ?_, ?_⟩
        · obtain ⟨r, hr⟩ := hpre
          rw [← hr]; exact List.take_left' rfl
        · unfold newPublicKeyFromString at h
          rw [if_neg hl, if_neg (by simpa using hp)] at h
          by_cases h50 : s.length < 50
          · exact .inl ⟨by omega, h50⟩
          · rw [if_neg h50] at h
            refine .inr ⟨s.take (s.length - 50), s.drop (s.length - 50), (List.take_append_drop _ _).symm, by simp; omega, ?_⟩
            rcases checkDecode_cases sha (s.drop (s.length - 50)) with ⟨d, g1, g2⟩ | ⟨_, _, e, g2⟩ | ⟨_, hb, w, g2⟩
            · rw [g2] at h; cases h
            · rw [g2] at h; cases h
            · exact hb
  · rintro (⟨t, n, c, body, hn, rfl, hb⟩ | ⟨hp, h⟩)
    · rcases C33_parse sha n t c body hn with ⟨d, g1, g2⟩ | ⟨_, g1, _⟩ | ⟨_, _, g2⟩
      · exact absurd hb (b58Text_not_bad _ _ g1)
      · exact absurd hb g1
      · exact g2
    · have hp' : ¬ (s.take 4 == asc "PUB_") = true := by
        intro h
        apply hp
        rw [← eq_of_beq h]
        exact List.take_prefix _ _
      rcases h with ⟨h7, h50⟩ | ⟨pre, body, rfl, hb, hbad⟩
      · unfold newPublicKeyFromString
        rw [if_neg (by omega), if_neg hp', if_pos h50]
        exact ⟨_, rfl⟩
      · unfold newPublicKeyFromString
        rw [if_neg (by simp; omega), if_neg hp', if_neg (by simp; omega)]
        have : (pre ++ body).drop ((pre ++ body).length - 50) = body := List.drop_left' (by simp; omega)
        rw [this]
        rcases checkDecode_cases sha body with ⟨d, g1, g2⟩ | ⟨_, g1, _⟩ | ⟨_, _, w, g2⟩
        · exact absurd hbad (b58Text_not_bad _ _ g1)
        · exact absurd hbad g1
        · exact ⟨w, by rw [g2]⟩

/-- C33: the legacy form of a K1 key is the prefix and the Base58 text with the double SHA-256 checksum; for other types LegacyString panics, as documented. -/
theorem C33_legacy_text (sha : Sha256) (pk : PubKey) (pre : Bytes) :
    (pk.type = 0 → ∃ body, pk.legacyString sha pre = .val (pre ++ body) ∧ LegacyBody sha.sum pk.data body) ∧
    (pk.type ≠ 0 → ∃ w, pk.legacyString sha pre = .panic w) := by
  constructor
  · intro h
    obtain ⟨body, h1, h2⟩ := b58Encode_text (pk.data ++ b58Checksum sha pk.data)
    refine ⟨body, ?_, h2⟩
    unfold PubKey.legacyString b58CheckEncode
    rw [if_neg (by simp [h]), h1]
  · intro h
    exact ⟨_, by unfold PubKey.legacyString; rw [if_pos (by simpa using h)]⟩

theorem not_prefix_append (pre body data : Bytes) (h : ¬ asc "PUB_" <+: pre) (hb : Base58Text body data) : ¬ asc "PUB_" <+: pre ++ body := by
  rintro ⟨r, hr⟩
  rcases List.append_eq_append_iff.1 hr with ⟨x, h1, _⟩ | ⟨x, h1, h2⟩
  · exact h ⟨x, h1.symm⟩
  · have hs := b58Text_string _ _ hb
    cases hx : x.getLast? with
    | none =>
      have : x = [] := List.getLast?_eq_none_iff.1 hx
      subst this
      rw [List.append_nil] at h1
      exact h ⟨[], by rw [List.append_nil, h1]⟩
    | some c =>
      have hc : c = 95 := by
        have := congrArg List.getLast? h1
        rw [List.getLast?_append, hx] at this
        simp at this
        have h95 : (asc "PUB_").getLast? = some 95 := by decide
        rw [h95] at this
        exact (Option.some.inj this).symm
      obtain ⟨d, hd, e⟩ := hs c (by rw [h2]; exact List.mem_append_left _ (List.mem_of_getLast? hx))
      have : ∀ d, d < 58 → (95 : UInt8) ≠ letter58 d := by decide +kernel
      exact this d hd (hc ▸ e)

/-- C33, legacy form: exactly the K1 keys whose legacy form NewPublicKeyFromString reads back are those whose Base58 text has 50 characters. -/
theorem C33_legacy_iff_partial (sha : Sha256) (pk : PubKey) (pre body : Bytes) (ht : pk.type = 0) (hp : ¬ asc "PUB_" <+: pre)
    (h : LegacyBody sha.sum pk.data body) :
    pk.legacyString sha pre = .val (pre ++ body) ∧ (newPublicKeyFromString sha (pre ++ body) = .val (some pk, none) ↔ body.length = 50) := by
  obtain ⟨body', h1, h2⟩ := (C33_legacy_text sha pk pre).1 ht
  have hbb : body' = body := b58Text_unique _ _ _ h2 h
  subst hbb
  refine ⟨h1, ?_⟩
  have hnp := not_prefix_append pre body' _ hp h
  rw [C33_accepts]
  constructor
  · rintro (⟨t, n, c, b, d, _, e, _⟩ | ⟨_, pre2, body2, data, e, hl, hb, hk⟩)
    · exact absurd ⟨n ++ [c] ++ b, by rw [e]; simp [List.append_assoc]⟩ hnp
    · cases hk
      rw [b58Text_unique _ _ _ h hb]
      exact hl
  · intro hl
    refine .inr ⟨hnp, pre, body', pk.data, rfl, hl, h, ?_⟩
    rw [← ht]

theorem digits_length (B n : Nat) (hB : 1 < B) (ds : List Nat) (h : Canonical B ds) (h1 : B ^ n ≤ posVal B ds) (h2 : posVal B ds < B ^ (n + 1)) :
    ds.length = n + 1 := by
  cases ds with
  | nil =>
    have : 0 < B ^ n := Nat.pow_pos (by omega)
    simp [posVal] at h1
    omega
  | cons d t =>
    have hd : d ≠ 0 := fun e => h.2 t (by rw [e])
    have g1 := posVal_ge B d t hd
    have g2 := posVal_lt B (d :: t) h.1
    have a1 : ¬ t.length > n := fun hc => by
      have := Nat.pow_le_pow_right (n := B) (by omega) (show n + 1 ≤ t.length by omega)
      omega
    have a2 : ¬ t.length < n := fun hc => by
      have := Nat.pow_le_pow_right (n := B) (by omega) (show (d :: t).length ≤ n by simp; omega)
      omega
    simp only [List.length_cons]
    omega

theorem legacyBody_length (sha : Sha256) (b : UInt8) (t body : Bytes) (ht : t.length = 32) (h : LegacyBody sha.sum (b :: t) body) (hb : b ≠ 0) :
    (b.toNat ≤ 28 → body.length = 50) ∧ (30 ≤ b.toNat → body.length = 51) := by
  have h0 : b.toNat ≠ 0 := fun e => hb (UInt8.toNat_inj.1 e)
  obtain ⟨z, ds, bs, rfl, e, hd, hbs, hv⟩ := h
  have hz : z = 0 := by
    cases z with
    | zero => rfl
    | succ z => simp [List.replicate_succ] at e; exact absurd e.1 hb
  subst hz
  simp only [List.replicate_zero, List.nil_append] at e
  subst e
  rw [List.cons_append, List.map_cons, posVal_cons] at hv
  have hl : (List.map UInt8.toNat (t ++ (sha.sum (sha.sum (b :: t))).take 4)).length = 36 := by simp [ht, sha.len]
  have hlt := posVal_lt 256 (List.map UInt8.toNat (t ++ (sha.sum (sha.sum (b :: t))).take 4)) (map_toNat_lt _)
  rw [hl] at hv hlt
  generalize posVal 256 (List.map UInt8.toNat (t ++ (sha.sum (sha.sum (b :: t))).take 4)) = v at hv hlt
  have h256 : b.toNat < 256 := b.toNat_lt
  simp only [List.replicate_zero, List.nil_append, List.length_map]
  constructor
  · intro hle
    have m1 : 1 * 256 ^ 36 ≤ b.toNat * 256 ^ 36 := Nat.mul_le_mul_right _ (by omega)
    have m2 : b.toNat * 256 ^ 36 ≤ 28 * 256 ^ 36 := Nat.mul_le_mul_right _ hle
    exact digits_length 58 49 (by decide) ds hd (by have : 58 ^ 49 ≤ 1 * 256 ^ 36 := by decide
                                                    omega)
      (by have : 28 * 256 ^ 36 + 256 ^ 36 < 58 ^ 50 := by decide
          omega)
  · intro hle
    have m1 : 30 * 256 ^ 36 ≤ b.toNat * 256 ^ 36 := Nat.mul_le_mul_right _ (by omega)
    have m2 : b.toNat * 256 ^ 36 ≤ 255 * 256 ^ 36 := Nat.mul_le_mul_right _ (by omega)
    exact digits_length 58 50 (by decide) ds hd (by have : 58 ^ 50 ≤ 30 * 256 ^ 36 := by decide
                                                    omega)
      (by have : 255 * 256 ^ 36 + 256 ^ 36 < 58 ^ 51 := by decide
          omega)

/-- C33, legacy form: it round-trips for 33-byte K1 keys whose first byte is 1..28, in particular for compressed points (2 or 3), with any prefix not starting with "PUB_". -/
theorem C33_legacy_roundtrip_partial (sha : Sha256) (b : UInt8) (t pre : Bytes) (ht : t.length = 32) (h1 : 1 ≤ b.toNat) (h2 : b.toNat ≤ 28) (hp : ¬ asc "PUB_" <+: pre) :
    ∃ s, PubKey.legacyString sha ⟨0, b :: t⟩ pre = .val s ∧ newPublicKeyFromString sha s = .val (some ⟨0, b :: t⟩, none) := by
  obtain ⟨body, g1, g2⟩ := (C33_legacy_text sha ⟨0, b :: t⟩ pre).1 rfl
  refine ⟨_, g1, (C33_legacy_iff_partial sha ⟨0, b :: t⟩ pre body rfl hp g2).2.2 ?_⟩
  exact (legacyBody_length sha b t body ht g2 (by rintro rfl; simp at h1)).1 h2

/-- C33 is false of the code for the other 33-byte keys: with a first byte of 30 or more the legacy form never round-trips. -/
theorem C33_violated_legacy (sha : Sha256) (b : UInt8) (t pre : Bytes) (ht : t.length = 32) (h : 30 ≤ b.toNat) (hp : ¬ asc "PUB_" <+: pre) :
    ∃ s, PubKey.legacyString sha ⟨0, b :: t⟩ pre = .val s ∧ newPublicKeyFromString sha s ≠ .val (some ⟨0, b :: t⟩, none) := by
  obtain ⟨body, g1, g2⟩ := (C33_legacy_text sha ⟨0, b :: t⟩ pre).1 rfl
  refine ⟨_, g1, fun e => ?_⟩
  have l1 := (C33_legacy_iff_partial sha ⟨0, b :: t⟩ pre body rfl hp g2).2.1 e
  have l2 := (legacyBody_length sha b t body ht g2 (by rintro rfl; simp at h)).2 h
  omega

/-- C33 is false of the code: a short string without "PUB_" makes NewPublicKeyFromString panic. -/
theorem C33_violated (sha : Sha256) : ∃ w, newPublicKeyFromString sha (asc "EOS6MRy") = .panic w :=
  (C33_panics_partial sha _).2 (.inr ⟨by decide, .inl (by decide)⟩)

/-- C63 for public keys: a failing UnmarshalText leaves the destination as it was. -/
theorem C63_key (sha : Sha256) (old new : PubKey) (text : Bytes) (e : Err) (h : PubKey.unmarshalText sha old text = .val (new, some e)) : new = old := by
  unfold PubKey.unmarshalText at h
  split at h <;> cases h
  rfl

/-- C33: UnmarshalText is NewPublicKeyFromString; it never stores through a nil pointer. -/
theorem C33_unmarshalText (sha : Sha256) (old : PubKey) (text : Bytes) :
    (∃ k, newPublicKeyFromString sha text = .val (some k, none) ∧ PubKey.unmarshalText sha old text = .val (k, none)) ∨
    (∃ k e, newPublicKeyFromString sha text = .val (k, some e) ∧ PubKey.unmarshalText sha old text = .val (old, some e)) ∨
    (∃ w, newPublicKeyFromString sha text = .panic w ∧ PubKey.unmarshalText sha old text = .panic w) := by
  unfold PubKey.unmarshalText
  cases h : newPublicKeyFromString sha text with
  | panic w => exact .inr (.inr ⟨w, rfl, rfl⟩)
  | val r =>
    obtain ⟨k, _ | e⟩ := r
    · cases k with
      | none =>
        exfalso
        rcases (C33_accepts sha text none).1 h with ⟨_, _, _, _, _, _, _, _, hk⟩ | ⟨_, _, _, _, _, _, _, hk⟩ <;> cases hk
      | some k => exact .inl ⟨k, rfl, rfl⟩
    · exact .inr (.inl ⟨k, e, rfl, rfl⟩)

/-! ## Signatures: text -/

/-- C34: text of a signature. -/
theorem C34_text (sg : Sig) (n : Bytes) (h : KeyName sg.type n) :
    ∃ body, sg.string = .val (asc "SIG_" ++ n ++ asc "_" ++ body) ∧ CheckedText n sg.data body := by
  obtain ⟨body, h1, h2⟩ := checkEncodeEosio_text sg.data n
  refine ⟨body, ?_, h2⟩
  unfold Sig.string
  rw [(keyName_string _ _ h).1, h1]

/-- C34: what NewSignatureString does with a string starting with "SIG_" and a type name. -/
theorem C34_parse (n : Bytes) (t : UInt8) (c : UInt8) (body : Bytes) (h : KeyName t n) :
    (∃ data, CheckedText n data body ∧ newSignatureString (asc "SIG_" ++ n ++ [c] ++ body) = .val (some ⟨t, data⟩, none)) ∨
    ((∀ data, ¬ CheckedText n data body) ∧ ¬ Base58Bad body ∧ ∃ k e, newSignatureString (asc "SIG_" ++ n ++ [c] ++ body) = .val (k, some e)) ∨
    ((∀ data, ¬ CheckedText n data body) ∧ Base58Bad body ∧ ∃ w, newSignatureString (asc "SIG_" ++ n ++ [c] ++ body) = .panic w) := by
  obtain ⟨e1, e2, e3⟩ := keyName_string _ _ h
  obtain ⟨s1, s2, s3⟩ := split_text (asc "SIG_") n c body rfl e3
  have hl : ¬ (asc "SIG_" ++ n ++ [c] ++ body).length < 7 := by simp [e3, asc]; omega
  unfold newSignatureString
  rw [if_neg (by rw [s1]; simp; simp at hl; omega), s2, e2]
  dsimp only
  rw [s3, e1]
  rcases checkDecodeEosio_cases body n with ⟨d, h1, h2⟩ | ⟨h1, h2, e, h3⟩ | ⟨h1, h2, w, h3⟩
  · exact .inl ⟨d, h1, by rw [h2]⟩
  · exact .inr (.inl ⟨h1, h2, some ⟨t, []⟩, e, by rw [h3]⟩)
  · exact .inr (.inr ⟨h1, h2, w, by rw [h3]⟩)

/-- C34: NewSignatureString inverts String for every signature of type K1, P1, WA. -/
theorem C34_roundtrip (sg : Sig) (h : sg.type.toNat ≤ 2) :
    ∃ s, sg.string = .val s ∧ newSignatureString s = .val (some sg, none) ∧ ∀ old, Sig.unmarshalText old s = .val (sg, none) := by
  obtain ⟨n, hn⟩ := keyName_le _ h
  obtain ⟨body, h1, h2⟩ := C34_text sg n hn
  have key : newSignatureString (asc "SIG_" ++ n ++ asc "_" ++ body) = .val (some sg, none) := by
    rcases C34_parse n sg.type 95 body hn with ⟨d, g1, g2⟩ | ⟨g1, _⟩ | ⟨g1, _⟩
    · have := base58Text_inj _ _ _ h2 g1
      have hd : sg.data = d := (append4_inj _ _ _ _ (by simp [digest_length]) (by simp [digest_length]) this).1
      rw [← hd] at g2
      exact g2
    · exact absurd h2 (g1 _)
    · exact absurd h2 (g1 _)
  refine ⟨_, h1, key, fun old => ?_⟩
  unfold Sig.unmarshalText
  rw [key]

/-- C34: NewSignatureString by cases: exactly the strings it accepts with the signature returned, and exactly those on which it panics. -/
theorem C34_cases_partial (s : Bytes) :
    (∀ k, newSignatureString s = .val (k, none) ↔
      ∃ t n c body data, KeyName t n ∧ s = asc "SIG_" ++ n ++ [c] ++ body ∧ CheckedText n data body ∧ k = some ⟨t, data⟩) ∧
    ((∃ w, newSignatureString s = .panic w) ↔ ∃ t n c body, KeyName t n ∧ s = asc "SIG_" ++ n ++ [c] ++ body ∧ Base58Bad body) := by
  have other : (¬ ∃ t n c body, KeyName t n ∧ s = asc "SIG_" ++ n ++ [c] ++ body) → ∃ e, newSignatureString s = .val (none, some e) := by
    intro h
    unfold newSignatureString
    by_cases hl : s.length < 7 || s.take 4 != asc "SIG_"
    · rw [if_pos hl]; exact ⟨_, rfl⟩
    · rw [if_neg hl]
      simp at hl
      obtain ⟨c, hs⟩ := join_text s (by omega)
      cases ht : parseKeyType ((s.drop 4).take 2) with
      | none => exact ⟨_, rfl⟩
      | some t => exact absurd ⟨t, _, c, _, keyName_of_parse _ _ ht, by rw [hl.2] at hs; exact hs⟩ h
  by_cases hs : ∃ t n c body, KeyName t n ∧ s = asc "SIG_" ++ n ++ [c] ++ body
  · obtain ⟨t, n, c, body, hn, hs⟩ := hs
    have uniq : ∀ t' n' c' body', KeyName t' n' → s = asc "SIG_" ++ n' ++ [c'] ++ body' → t' = t ∧ n' = n ∧ body' = body := by
      intro t' n' c' body' hn' hs'
      have a := split_text (asc "SIG_") n c body rfl (keyName_string _ _ hn).2.2
      have b := split_text (asc "SIG_") n' c' body' rfl (keyName_string _ _ hn').2.2
      rw [← hs] at a
      rw [← hs'] at b
      have e : n' = n := b.2.1.symm.trans a.2.1
      refine ⟨?_, e, b.2.2.symm.trans a.2.2⟩
      have p := (keyName_string _ _ hn).2.1
      have p' := (keyName_string _ _ hn').2.1
      rw [e, p] at p'
      exact (Option.some.inj p').symm
    rcases C34_parse n t c body hn with ⟨d, g1, g2⟩ | ⟨g1, gb, k', e, g2⟩ | ⟨g1, gb, w, g2⟩
    · rw [← hs] at g2
      constructor
      · intro k
        rw [g2]
        constructor
        · intro h; cases h; exact ⟨t, n, c, body, d, hn, hs, g1, rfl⟩
        · rintro ⟨t', n', c', body', data, hn', hs', hc, rfl⟩
          obtain ⟨rfl, rfl, rfl⟩ := uniq t' n' c' body' hn' hs'
          have := base58Text_inj _ _ _ hc g1
          rw [(append4_inj _ _ _ _ (by simp [digest_length]) (by simp [digest_length]) this).1]
      · rw [g2]
        constructor
        · rintro ⟨w, h⟩; cases h
        · rintro ⟨t', n', c', body', hn', hs', hb⟩
          obtain ⟨rfl, rfl, rfl⟩ := uniq t' n' c' body' hn' hs'
          exact absurd hb (b58Text_not_bad _ _ g1)
    · rw [← hs] at g2
      constructor
      · intro k
        rw [g2]
        constructor
        · intro h; cases h
        · rintro ⟨t', n', c', body', data, hn', hs', hc, rfl⟩
          obtain ⟨rfl, rfl, rfl⟩ := uniq t' n' c' body' hn' hs'
          exact absurd hc (g1 _)
      · rw [g2]
        constructor
        · rintro ⟨w, h⟩; cases h
        · rintro ⟨t', n', c', body', hn', hs', hb⟩
          obtain ⟨rfl, rfl, rfl⟩ := uniq t' n' c' body' hn' hs'
          exact absurd hb gb
    · rw [← hs] at g2
      constructor
      · intro k
        rw [g2]
        constructor
        · intro h; cases h
        · rintro ⟨t', n', c', body', data, hn', hs', hc, rfl⟩
          obtain ⟨rfl, rfl, rfl⟩ := uniq t' n' c' body' hn' hs'
          exact absurd hc (g1 _)
      · rw [g2]
        exact ⟨fun _ => ⟨t, n, c, body, hn, hs, gb⟩, fun _ => ⟨w, rfl⟩⟩
  · obtain ⟨e, he⟩ := other hs
    rw [he]
    constructor
    · intro k
      constructor
      · intro h; cases h
      · rintro ⟨t, n, c, body, _, hn, h, _⟩; exact absurd ⟨t, n, c, body, hn, h⟩ hs
    · constructor
      · rintro ⟨w, h⟩; cases h
      · rintro ⟨t, n, c, body, hn, h, _⟩; exact absurd ⟨t, n, c, body, hn, h⟩ hs

/-- C34: an ASCII string never makes NewSignatureString panic. -/
theorem C34_ascii_partial (s : Bytes) (h : ∀ c ∈ s, c.toNat < 128) : ¬ ∃ w, newSignatureString s = .panic w := by
  rw [(C34_cases_partial s).2]
  rintro ⟨t, n, c, body, _, rfl, ⟨pre, x, post, rfl, _, _, h128, _⟩⟩
  have := h x (by simp)
  omega

/-- C34 is false of the code: "SIG_K1_€" makes NewSignatureString panic. -/
theorem C34_violated : ∃ w, newSignatureString (asc "SIG_K1_" ++ [0xE2, 0x82, 0xAC]) = .panic w := ⟨"index out of range", by decide +kernel⟩

theorem C63_signature (old new : Sig) (text : Bytes) (e : Err) (h : Sig.unmarshalText old text = .val (new, some e)) : new = old := by
  unfold Sig.unmarshalText at h
  split at h <;> cases h
  rfl


/-! ## Binary forms -/

theorem putLen_some {α : Type} (l : UInt64) (bs : Bytes) (f : Bytes → Dec α) (h : putUvarint 5 l = some bs) : putLen l f = f bs := by
  unfold putLen; rw [h]

theorem maxAlloc_big : 2 ^ 35 ≤ maxAlloc := by decide

/-- C35: public keys with well-formed data round-trip; the encoding is the type byte and the data; the previous content of the destination does not matter. -/
theorem C35_key (pk old : PubKey) (h : WfKey pk.type pk.data) : pk.marshal.Writes (pk.type :: pk.data) ∧ old.unmarshal.Reads (pk.type :: pk.data) pk := by
  refine ⟨(writeByte_writes _).bind (writeBytes_writes _), ?_⟩
  obtain ⟨t, data⟩ := pk
  refine Dec.Reads.bind (b1 := [t]) (readByte_reads t) ?_
  dsimp only
  rcases h with ⟨ht, hl⟩ | ⟨ht, point, w, id, h1, ⟨lb, h2, rfl⟩, h3, rfl⟩
  · rw [if_pos (by rcases ht with rfl | rfl <;> decide)]
    have := readBytes_try_reads 33 (by decide) (fun (x : Nat × Bytes × Option Err) => (pure (⟨t, x.2.1⟩, x.2.2) : Dec (PubKey × Option Err))) data [] ⟨t, data⟩ hl
      (Dec.Reads.pure _)
    rw [List.append_nil] at this
    exact this
  · have hn : ¬ ((t == 0 || t == 1) = true) := by subst ht; decide
    have hy : (t == 2) = true := by subst ht; decide
    rw [if_neg hn, if_pos hy]
    obtain ⟨g1, g2⟩ := minLeb_reads lb id.length h3 h2
    refine readBytes_try_reads 34 (by decide) _ point _ _ h1 ?_
    dsimp only
    refine Dec.Reads.bind g1 ?_
    dsimp only
    rw [goInt_toUInt64 _ (by omega)]
    have := readBytes_try_reads id.length (Nat.le_trans (Nat.le_of_lt h3) maxAlloc_big) (fun (x : Nat × Bytes × Option Err) => match x.2.2 with
      | some e => (pure (⟨t, old.data⟩, some e) : Dec (PubKey × Option Err))
      | none => putLen id.length.toUInt64 fun tmp => pure (⟨t, point ++ tmp ++ x.2.1⟩, none)) id [] ⟨t, point ++ (lb ++ id)⟩ rfl
      (by dsimp only; rw [putLen_some _ _ _ g2, List.append_assoc]; exact Dec.Reads.pure _)
    rw [List.append_nil] at this
    exact this

/-- C35: whatever UnmarshalABI accepts is a well-formed key that starts with the type byte read; so its data has one of the documented layouts, with a minimal length prefix even if the input had another one. -/
theorem C35_key_wf (old pk : PubKey) (fin : Err) (bs r : Bytes) (h : old.unmarshal.runE fin bs = .ok (pk, none) r) : WfKey pk.type pk.data ∧ bs.head? = some pk.type := by
  unfold PubKey.unmarshal at h
  obtain ⟨⟨t, e⟩, r1, h1, h⟩ := Dec.runE_bind_ok h
  cases e with
  | some e => cases h
  | none =>
    have hb := readByte_inv _ _ _ _ h1
    dsimp only at h
    split at h
    · rename_i ht
      obtain ⟨⟨k, b, e⟩, r2, h2, h⟩ := Dec.runE_bind_ok h
      simp only [Dec.runE_pure, Out.ok.injEq, Prod.mk.injEq] at h
      obtain ⟨⟨rfl, rfl⟩, rfl⟩ := h
      have := readBytes_inv _ _ _ _ _ _ h2
      refine ⟨.inl ⟨by simpa using ht, by dsimp only; omega⟩, by rw [hb]; rfl⟩
    · split at h
      · rename_i ht
        obtain ⟨⟨k, point, e⟩, r2, h2, h⟩ := Dec.runE_bind_ok h
        cases e with
        | some e => cases h
        | none =>
          dsimp only at h
          obtain ⟨⟨l, e⟩, r3, h3, h⟩ := Dec.runE_bind_ok h
          cases e with
          | some e => cases h
          | none =>
            dsimp only at h
            obtain ⟨⟨k', id, e⟩, r4, h4, h⟩ := Dec.runE_bind_ok h
            cases e with
            | some e => cases h
            | none =>
              dsimp only at h
              have i2 := readBytes_inv _ _ _ _ _ _ h2
              have i4 := readBytes_inv _ _ _ _ _ _ h4
              have hl : l.toNat = id.length := by have := goInt_nonneg l i4.1; omega
              cases hp : putUvarint 5 l with
              | none => unfold putLen at h; rw [hp] at h; cases h
              | some tmp =>
                rw [putLen_some _ _ _ hp] at h
                simp only [Dec.runE_pure, Out.ok.injEq, Prod.mk.injEq, and_true] at h
                obtain ⟨rfl, rfl⟩ := h
                have hm := putUvarint_minLeb _ _ _ hp
                rw [hl] at hm
                refine ⟨.inr ⟨eq_of_beq ht, point, tmp ++ id, id, by omega, ⟨tmp, hm, rfl⟩, ?_, by rw [List.append_assoc]⟩, by rw [hb]; rfl⟩
                have := (putUvarint_isSome 5 l).1 (by rw [hp]; rfl)
                rw [← hl]
                have := this.1
                simpa using this
      · cases h

/-- C35: an unknown type byte is an error, and nothing after it is consumed. -/
theorem C35_key_unknown (old : PubKey) (fin : Err) (t : UInt8) (rest : Bytes) (h : 3 ≤ t.toNat) :
    ∃ k e, old.unmarshal.runE fin (t :: rest) = .ok (k, some e) rest := by
  have h0 : ∀ c : UInt8, c.toNat < 3 → (t == c) = false := fun c hc => by
    rw [beq_eq_false_iff_ne]; rintro rfl; omega
  unfold PubKey.unmarshal
  rw [Dec.runE_bind, readByte_cons, Out.bind_ok]
  dsimp only
  rw [if_neg (by rw [h0 0 (by decide), h0 1 (by decide)]; decide), if_neg (by rw [h0 2 (by decide)]; decide)]
  exact ⟨_, _, rfl⟩

/-- C35: signatures with well-formed data round-trip. -/
theorem C35_signature (sg old : Sig) (h : WfSig sg.type sg.data) : sg.marshal.Writes (sg.type :: sg.data) ∧ old.unmarshal.Reads (sg.type :: sg.data) sg := by
  refine ⟨(writeByte_writes _).bind (writeBytes_writes _), ?_⟩
  obtain ⟨t, data⟩ := sg
  refine Dec.Reads.bind (b1 := [t]) (readByte_reads t) ?_
  dsimp only
  rcases h with ⟨ht, hl⟩ | ⟨ht, sig, w, ad, w', cd, h1, ⟨lb, h2, rfl⟩, ⟨lb', h2', rfl⟩, h3, h3', rfl⟩
  · rw [if_pos (by rcases ht with rfl | rfl <;> decide)]
    have := readBytes_try_reads 65 (by decide) (fun (x : Nat × Bytes × Option Err) => (pure (⟨t, x.2.1⟩, x.2.2) : Dec (Sig × Option Err))) data [] ⟨t, data⟩ hl
      (Dec.Reads.pure _)
    rw [List.append_nil] at this
    exact this
  · have hn : ¬ ((t == 0 || t == 1) = true) := by subst ht; decide
    have hy : (t == 2) = true := by subst ht; decide
    rw [if_neg hn, if_pos hy]
    obtain ⟨g1, g2⟩ := minLeb_reads lb ad.length h3 h2
    obtain ⟨g1', g2'⟩ := minLeb_reads lb' cd.length h3' h2'
    rw [List.append_assoc]
    refine readBytes_try_reads 65 (by decide) _ sig _ _ h1 ?_
    dsimp only
    rw [List.append_assoc]
    refine Dec.Reads.bind g1 ?_
    dsimp only
    rw [goInt_toUInt64 _ (by omega)]
    refine readBytes_try_reads ad.length (Nat.le_trans (Nat.le_of_lt h3) maxAlloc_big) _ ad _ _ rfl ?_
    dsimp only
    refine Dec.Reads.bind g1' ?_
    dsimp only
    rw [goInt_toUInt64 _ (by omega)]
    have := readBytes_try_reads cd.length (Nat.le_trans (Nat.le_of_lt h3') maxAlloc_big) (fun (x : Nat × Bytes × Option Err) => match x.2.2 with
      | some e => (pure (⟨t, old.data⟩, some e) : Dec (Sig × Option Err))
      | none => putLen ad.length.toUInt64 fun tmp => putLen cd.length.toUInt64 fun tmp' => pure (⟨t, sig ++ tmp ++ ad ++ tmp' ++ x.2.1⟩, none)) cd []
        ⟨t, sig ++ (lb ++ (ad ++ (lb' ++ cd)))⟩ rfl
      (by
        dsimp only
        rw [putLen_some _ _ _ g2, putLen_some _ _ _ g2']
        simp only [List.append_assoc]
        exact Dec.Reads.pure _)
    rw [List.append_nil] at this
    exact this

/-- C35: whatever UnmarshalABI accepts is a well-formed signature of the type read. -/
theorem C35_signature_wf (old sg : Sig) (fin : Err) (bs r : Bytes) (h : old.unmarshal.runE fin bs = .ok (sg, none) r) : WfSig sg.type sg.data ∧ bs.head? = some sg.type := by
  unfold Sig.unmarshal at h
  obtain ⟨⟨t, e⟩, r1, h1, h⟩ := Dec.runE_bind_ok h
  cases e with
  | some e => cases h
  | none =>
    have hb := readByte_inv _ _ _ _ h1
    dsimp only at h
    split at h
    · rename_i ht
      obtain ⟨⟨k, b, e⟩, r2, h2, h⟩ := Dec.runE_bind_ok h
      simp only [Dec.runE_pure, Out.ok.injEq, Prod.mk.injEq] at h
      obtain ⟨⟨rfl, rfl⟩, rfl⟩ := h
      have := readBytes_inv _ _ _ _ _ _ h2
      refine ⟨.inl ⟨by simpa using ht, by dsimp only; omega⟩, by rw [hb]; rfl⟩
    · split at h
      · rename_i ht
        obtain ⟨⟨k, sig, e⟩, r2, h2, h⟩ := Dec.runE_bind_ok h
        cases e with
        | some e => cases h
        | none =>
          dsimp only at h
          obtain ⟨⟨al, e⟩, r3, h3, h⟩ := Dec.runE_bind_ok h
          cases e with
          | some e => cases h
          | none =>
            dsimp only at h
            obtain ⟨⟨k', ad, e⟩, r4, h4, h⟩ := Dec.runE_bind_ok h
            cases e with
            | some e => cases h
            | none =>
              dsimp only at h
              obtain ⟨⟨cl, e⟩, r5, h5, h⟩ := Dec.runE_bind_ok h
              cases e with
              | some e => cases h
              | none =>
                dsimp only at h
                obtain ⟨⟨k'', cd, e⟩, r6, h6, h⟩ := Dec.runE_bind_ok h
                cases e with
                | some e => cases h
                | none =>
                  dsimp only at h
                  have i2 := readBytes_inv _ _ _ _ _ _ h2
                  have i4 := readBytes_inv _ _ _ _ _ _ h4
                  have i6 := readBytes_inv _ _ _ _ _ _ h6
                  have hal : al.toNat = ad.length := by have := goInt_nonneg al i4.1; omega
                  have hcl : cl.toNat = cd.length := by have := goInt_nonneg cl i6.1; omega
                  cases hp : putUvarint 5 al with
                  | none => unfold putLen at h; rw [hp] at h; cases h
                  | some tmp =>
                    rw [putLen_some _ _ _ hp] at h
                    cases hp' : putUvarint 5 cl with
                    | none => unfold putLen at h; rw [hp'] at h; cases h
                    | some tmp' =>
                      rw [putLen_some _ _ _ hp'] at h
                      simp only [Dec.runE_pure, Out.ok.injEq, Prod.mk.injEq, and_true] at h
                      obtain ⟨rfl, rfl⟩ := h
                      have hm := putUvarint_minLeb _ _ _ hp
                      have hm' := putUvarint_minLeb _ _ _ hp'
                      rw [hal] at hm
                      rw [hcl] at hm'
                      have b1 := ((putUvarint_isSome 5 al).1 (by rw [hp]; rfl)).1
                      have b2 := ((putUvarint_isSome 5 cl).1 (by rw [hp']; rfl)).1
                      rw [hal] at b1
                      rw [hcl] at b2
                      refine ⟨.inr ⟨eq_of_beq ht, sig, tmp ++ ad, ad, tmp' ++ cd, cd, by omega, ⟨tmp, hm, rfl⟩, ⟨tmp', hm', rfl⟩, by simpa using b1, by simpa using b2,
                        by simp only [List.append_assoc]⟩, by rw [hb]; rfl⟩
      · cases h

/-- C35: an unknown type byte is an error. -/
theorem C35_signature_unknown (old : Sig) (fin : Err) (t : UInt8) (rest : Bytes) (h : 3 ≤ t.toNat) :
    ∃ k e, old.unmarshal.runE fin (t :: rest) = .ok (k, some e) rest := by
  have h0 : ∀ c : UInt8, c.toNat < 3 → (t == c) = false := fun c hc => by
    rw [beq_eq_false_iff_ne]; rintro rfl; omega
  unfold Sig.unmarshal
  rw [Dec.runE_bind, readByte_cons, Out.bind_ok]
  dsimp only
  rw [if_neg (by rw [h0 0 (by decide), h0 1 (by decide)]; decide), if_neg (by rw [h0 2 (by decide)]; decide)]
  exact ⟨_, _, rfl⟩

theorem putLen_strict {α : Type} {s : Bool} {P : Err → Prop} (l : UInt64) (f : Bytes → Dec (α × Option Err)) (h : ∀ b, (f b).StrictP s P) : (putLen l f).StrictP s P := by
  unfold putLen
  split
  · trivial
  · exact h _

/-- A read of bytes followed by the usual error check. -/
theorem readBytes_try_strict {β : Type} {s : Bool} {P : Err → Prop} (n : Int) (g : Nat × Bytes × Option Err → Dec (β × Option Err))
    (hn : ∀ k b, (g (k, b, none)).StrictP s P) (he : ∀ a b e, ∃ v, g (a, b, some e) = pure (v, some e)) : (readBytes n >>= g).StrictP s P := by
  apply readBytes_bind_strict
  · rintro ⟨k, b, _ | e⟩
    · exact hn k b
    · obtain ⟨v, hv⟩ := he k b e
      rw [hv]; trivial
  · intro a b e h
    obtain ⟨v, hv⟩ := he a b e
    rw [hv]; exact h

/-- C35, C08-C10 for keys and signatures: truncated input is an error, failed writes are reported. -/
theorem C35_strict (s : Bool) (pk : PubKey) (sg : Sig) : pk.unmarshal.Strict s ∧ sg.unmarshal.Strict s ∧ pk.marshal.Strict ∧ sg.marshal.Strict := by
  refine ⟨?_, ?_, (writeByte_strict _).seq (writeBytes_strict _), (writeByte_strict _).seq (writeBytes_strict _)⟩
  · intro P hP
    unfold PubKey.unmarshal
    strict_try (readByte_strict s P hP)
    dsimp only
    split
    · apply readBytes_bind_strict
      · rintro ⟨a, b, _ | e⟩ <;> trivial
      · intro a b e h; exact h
    · split
      · refine readBytes_try_strict _ _ (fun k b => ?_) (fun _ _ _ => ⟨_, rfl⟩)
        dsimp only
        strict_try (readVaruint_strict s P hP)
        refine readBytes_try_strict _ _ (fun k b => ?_) (fun _ _ _ => ⟨_, rfl⟩)
        exact putLen_strict _ _ fun _ => trivial
      · trivial
  · intro P hP
    unfold Sig.unmarshal
    strict_try (readByte_strict s P hP)
    dsimp only
    split
    · apply readBytes_bind_strict
      · rintro ⟨a, b, _ | e⟩ <;> trivial
      · intro a b e h; exact h
    · split
      · refine readBytes_try_strict _ _ (fun k b => ?_) (fun _ _ _ => ⟨_, rfl⟩)
        dsimp only
        strict_try (readVaruint_strict s P hP)
        refine readBytes_try_strict _ _ (fun k b => ?_) (fun _ _ _ => ⟨_, rfl⟩)
        dsimp only
        strict_try (readVaruint_strict s P hP)
        refine readBytes_try_strict _ _ (fun k b => ?_) (fun _ _ _ => ⟨_, rfl⟩)
        exact putLen_strict _ _ fun _ => putLen_strict _ _ fun _ => trivial
      · trivial

/-! Concrete cases. -/
/-- A K1 key of 33 bytes is well-formed. -/
example : WfKey 0 (2 :: List.replicate 32 7) := .inl ⟨.inl rfl, rfl⟩
/-- A WebAuthn key with relying party "abc" is well-formed, and an overlong length in the input is rewritten. -/
example : WfKey 2 (List.replicate 34 7 ++ [3, 97, 98, 99]) := .inr ⟨rfl, _, [3, 97, 98, 99], [97, 98, 99], rfl, ⟨[3], ⟨⟨[], 3, rfl, by simp, by decide⟩, by decide, .inl rfl⟩, rfl⟩, by decide, rfl⟩
example : (PubKey.unmarshal ⟨0, []⟩).run (2 :: List.replicate 34 7 ++ [0x83, 0x00, 97, 98, 99]) = .ok (⟨2, List.replicate 34 7 ++ [3, 97, 98, 99]⟩, none) [] := by decide +kernel
example : WfSig 2 (List.replicate 65 7 ++ [1, 5] ++ [2, 6, 6]) :=
  .inr ⟨rfl, _, _, [5], _, [6, 6], rfl, ⟨[1], ⟨⟨[], 1, rfl, by simp, by decide⟩, by decide, .inl rfl⟩, rfl⟩, ⟨[2], ⟨⟨[], 2, rfl, by simp, by decide⟩, by decide, .inl rfl⟩, rfl⟩, by decide, by decide, rfl⟩
/-- The text of a key, read back. -/
example (sha : Sha256) : ∃ s, PubKey.string ⟨1, [1, 2, 3]⟩ = .val s ∧ newPublicKeyFromString sha s = .val (some ⟨1, [1, 2, 3]⟩, none) :=
  (C33_roundtrip sha ⟨1, [1, 2, 3]⟩ (by decide)).imp fun _ h => ⟨h.1, h.2.1⟩
example (sha : Sha256) : ∃ s, PubKey.legacyString sha ⟨0, 2 :: List.replicate 32 7⟩ (asc "EOS") = .val s ∧ newPublicKeyFromString sha s = .val (some ⟨0, 2 :: List.replicate 32 7⟩, none) :=
  C33_legacy_roundtrip_partial sha 2 _ _ rfl (by decide) (by decide) (by decide)

end Verif
