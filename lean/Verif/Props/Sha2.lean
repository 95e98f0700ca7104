import Verif.Lemmas.Sha2
import Verif.Props.Tx
import Verif.Props.Base58
import Verif.Vectors.Lit
/-! # C79: Checksum256Digest and Checksum512Digest -/
namespace Verif
open Sha2Spec

/-- The digests are those of the standard, for any message memory can hold. -/
theorem C79_sha256 (m : Bytes) (hm : m.length < 2 ^ 61) : IsSha256 m (checksum256Digest m) ∧ (checksum256Digest m).length = 32 := by
  have hl : (sha256Alg.sum m).length = 32 := sha256Alg.sum_length m
  unfold checksum256Digest
  rw [List.take_of_length_le (by omega)]
  exact ⟨sha2_digest fits256 m hm, hl⟩
theorem C79_sha512 (m : Bytes) (hm : m.length < 2 ^ 61) : IsSha512 m (checksum512Digest m) ∧ (checksum512Digest m).length = 64 := by
  have hl : (sha512Alg.sum m).length = 64 := sha512Alg.sum_length m
  unfold checksum512Digest
  rw [List.take_of_length_le (by omega)]
  exact ⟨sha2_digest fits512 m hm, hl⟩

/-- The standard gives every message one digest. -/
theorem C79_unique (m d d' : Bytes) : (IsSha256 m d → IsSha256 m d' → d = d') ∧ (IsSha512 m d → IsSha512 m d' → d = d') := ⟨digest_unique (by decide), digest_unique (by decide)⟩

theorem putUvarint_short (cap : Nat) : ∀ (x : UInt64) (bs : Bytes), putUvarint cap x = some bs → bs.length ≤ cap := by
  induction cap with
  | zero => intro x bs h; simp [putUvarint] at h
  | succ cap ih =>
    intro x bs h
    unfold putUvarint at h
    split at h
    · cases hr : putUvarint cap (x >>> 7) with
      | none => rw [hr] at h; cases h
      | some r =>
        rw [hr] at h
        cases h
        have := ih _ _ hr
        simp
        omega
    · cases h
      simp

theorem varuintBytes_short (n : Nat) : (varuintBytes n).length ≤ 4 := by
  unfold varuintBytes
  cases h : putUvarint 4 n.toUInt64 with
  | none => simp
  | some bs => exact putUvarint_short 4 _ bs h

theorem action_length (a : Action) (h : a.Small) : a.bytes.length < 2 ^ 61 := by
  have h1 := varuintBytes_short a.authorization.length
  have h2 := varuintBytes_short a.data.length
  have h3 : (a.authorization.flatMap PermissionLevel.bytes).length = 16 * a.authorization.length := by
    induction a.authorization with
    | nil => rfl
    | cons x l ih => rw [List.flatMap_cons, List.length_append, ih]; simp [PermissionLevel.bytes, length_leBytes]; omega
  obtain ⟨h4, h5⟩ := h
  unfold Action.bytes dataBytes
  simp only [List.length_append, length_leBytes, h3]
  omega

/-- Action.Digest is the SHA-256 of the bytes of the action. -/
theorem C79_action (a : Action) (h : a.Small) : ∃ bs d, ActionLayout a bs ∧ IsSha256 bs d ∧ a.digest goSha256 = .val d := by
  refine ⟨a.bytes, _, action_layout a h, sha2_digest fits256 a.bytes (action_length a h), ?_⟩
  have := action_writes a h
  unfold Enc.Writes at this
  rw [Action.digest, this]
  dsimp only
  rw [List.take_of_length_le (by rw [goSha256.len])]
  rfl

theorem sum32 (m : Bytes) : (sha256Alg.sum m).length = 32 := sha256Alg.sum_length m

/-- base58.CheckEncode writes the payload and the first four bytes of the SHA-256 of its SHA-256 in Base58, CheckDecode accepts exactly the Base58 text of such bytes. -/
theorem C79_check (b : Bytes) (hb : b.length < 2 ^ 61) : ∃ d₁ d₂ s, IsSha256 b d₁ ∧ IsSha256 d₁ d₂ ∧ b58CheckEncode goSha256 b = .val s ∧ Base58Text s (b ++ d₂.take 4) := by
  obtain ⟨s, h1, h2⟩ := b58Encode_text (b ++ b58Checksum goSha256 b)
  exact ⟨_, _, s, sha2_digest fits256 b hb, sha2_digest fits256 _ (by rw [sum32]; decide), h1, h2⟩
theorem C79_check_decode (s d payload : Bytes) (hd : b58Decode s = .val d) (hl : d.length < 2 ^ 61) :
    b58CheckDecode goSha256 s = .val (payload, none) ↔ ∃ d₁ d₂, IsSha256 payload d₁ ∧ IsSha256 d₁ d₂ ∧ d = payload ++ d₂.take 4 := by
  have h4 : ∀ p, ((goSha256.sum (goSha256.sum p)).take 4).length = 4 := fun p => by simp [goSha256.len]
  constructor
  · intro h
    rcases C32_decode goSha256 s d hd with ⟨_, h'⟩ | ⟨p, rfl, h'⟩ | ⟨_, _, h'⟩
    · rw [h'] at h; cases h
    · rw [h'] at h
      cases h
      rw [List.length_append] at hl
      exact ⟨_, _, sha2_digest fits256 payload (by omega), sha2_digest fits256 _ (by rw [sum32]; decide), rfl⟩
    · rw [h'] at h; cases h
  · rintro ⟨d₁, d₂, h1, h2, e⟩
    have hp : payload.length < 2 ^ 61 := by rw [e, List.length_append] at hl; omega
    obtain rfl := digest_unique (w := 32) (by decide) h1 (sha2_digest fits256 payload hp)
    obtain rfl := digest_unique (w := 32) (by decide) h2 (sha2_digest fits256 _ (by rw [sum32]; decide))
    rcases C32_decode goSha256 s d hd with ⟨h, _⟩ | ⟨p, h, h'⟩ | ⟨_, h, _⟩
    · rw [e, List.length_append] at h
      have := h4 payload
      have e' : goSha256.sum (goSha256.sum payload) = sha256Alg.sum (sha256Alg.sum payload) := rfl
      rw [e'] at this
      omega
    · have := List.append_inj' (h.symm.trans e) ((h4 p).trans (h4 payload).symm)
      rw [h', this.1]
    · exact absurd e (h payload)

/-! ## Examples: the digests of "abc" in the examples published with the standard, and of messages that fill one block and more -/

example : checksum256Digest (asc "abc") = hex! "ba7816bf8f01cfea414140de5dae2223b00361a396177a9cb410ff61f20015ad" := by decide +kernel
example : checksum512Digest (asc "abc") =
    hex! "ddaf35a193617abacc417349ae20413112e6fa4e89a97ea20a9eeee64b55d39a2192992a274fc1a836ba3c23a3feebbd454d4423643ce80e2a9ac94fa54ca49f" := by decide +kernel
example : checksum256Digest [] = hex! "e3b0c44298fc1c149afbf4c8996fb92427ae41e4649b934ca495991b7852b855" := by decide +kernel
example : checksum256Digest (txt! "abcdbcdecdefdefgefghfghighijhijkijkljklmklmnlmnomnopnopq") = hex! "248d6a61d20638b8e5c026930c3e6039a33ce45964ff2167f6ecedd419db06c1" := by decide +kernel

/-- The payload of a private key in the format of wallets -/
example : (b58CheckDecode goSha256 (txt! "5KQvfsPJ9YvGuVbLRLXVWPNubed6FWvV8yax6cNSJEzB4co3zFu")) = .val (hex! "80d25968ebfce6e617bdb839b5a66cfc1fdd051d79a91094f7baceded449f84333", none) := by decide +kernel

end Verif
