import Verif.Model.Prim
import Verif.Model.Base58
/-! # pkg/chain/key_type.go, public_key.go, signature.go -/
namespace Verif

/-- public_key.go:12-15 `PublicKey`; `NewPublicKey` (:17-22) is its constructor; `KeyType` is a byte (key_type.go:3-9: K1 = 0, P1 = 1, WA = 2). A nil and an empty Data are not distinguished. -/
structure PubKey where
  type : UInt8
  data : Bytes
deriving DecidableEq, Repr

/-- signature.go:12-15 `Signature`; `NewSignature` (:17-22) is its constructor. -/
structure Sig where
  type : UInt8
  data : Bytes
deriving DecidableEq, Repr

/-- key_type.go:11-22 `KeyType.String` -/
def keyTypeString (t : UInt8) : Bytes :=
  if t == 0 then asc "K1" else if t == 1 then asc "P1" else if t == 2 then asc "WA" else asc "XX"

/-- public_key.go:31-40, signature.go:29-38: the switch over s[4:6] -/
def parseKeyType (s : Bytes) : Option UInt8 :=
  if s == asc "K1" then some 0 else if s == asc "P1" then some 1 else if s == asc "WA" then some 2 else none

/-- public_key.go:26 -/
def errKeyString : Err := .msg "invalid public key string"
/-- signature.go:26 -/
def errSigString : Err := .msg "invalid signature string"
/-- public_key.go:39,107 and signature.go:102; the type is left out -/
def errKeyType : Err := .msg "unknown key type"
/-- signature.go:37; the type is left out -/
def errSigType : Err := .msg "unknown signature type"

/-- public_key.go:24-53 `NewPublicKeyFromString`; the pointer result is `none` for nil. -/
def newPublicKeyFromString (sha : Sha256) (s : Bytes) : Pan (Option PubKey × Option Err) :=
  if s.length < 7 then .val (none, some errKeyString)
  else if s.take 4 == asc "PUB_" then
    match parseKeyType ((s.drop 4).take 2) with
    | none => .val (none, some errKeyType)
    | some t =>
      match b58CheckDecodeEosio (s.drop 7) (keyTypeString t) with
      | .panic w => .panic w
      | .val (d, err) => .val (some ⟨t, d⟩, err)
  else if s.length < 50 then .panic "slice bounds out of range"
  else
    match b58CheckDecode sha (s.drop (s.length - 50)) with
    | .panic w => .panic w
    | .val (d, err) => .val (some ⟨0, d⟩, err)

/-- public_key.go:55-57 `PublicKey.String` -/
def PubKey.string (pk : PubKey) : Pan Bytes :=
  match b58CheckEncodeEosio pk.data (keyTypeString pk.type) with
  | .panic w => .panic w
  | .val s => .val (asc "PUB_" ++ keyTypeString pk.type ++ asc "_" ++ s)

/-- public_key.go:60-65 `PublicKey.LegacyString` -/
def PubKey.legacyString (sha : Sha256) (pk : PubKey) (pre : Bytes) : Pan Bytes :=
  if pk.type != 0 then .panic "only K1 keys can be converted to legacy format"
  else match b58CheckEncode sha pk.data with
    | .panic w => .panic w
    | .val s => .val (pre ++ s)

/-- public_key.go:69-75 `PublicKey.MarshalABI` -/
def PubKey.marshal (pk : PubKey) : Enc (Option Err) := do
  match ← writeByte pk.type with
  | some e => pure (some e)
  | none => writeBytes pk.data

/-- public_key.go:101-103, signature.go:93-98: `tmp := make([]byte, binary.MaxVarintLen32); n := binary.PutUvarint(tmp, l); append(data, tmp[:n]...)`;
the buffer has five bytes -/
def putLen (l : UInt64) (f : Bytes → Dec α) : Dec α :=
  match putUvarint 5 l with
  | none => .panic "index out of range"
  | some bs => f bs

/-- public_key.go:79-111 `PublicKey.UnmarshalABI` -/
def PubKey.unmarshal (pk : PubKey) : Dec (PubKey × Option Err) := do
  let (t, err) ← readByte
  match err with
  | some e => pure (pk, some e)
  | none =>
    if t == 0 || t == 1 then
      let (_, data, err) ← readBytes 33
      pure (⟨t, data⟩, err)
    else if t == 2 then
      let (_, data, err) ← readBytes 34
      match err with
      | some e => pure (⟨t, pk.data⟩, some e)
      | none =>
        let (l, err) ← readVaruint
        match err with
        | some e => pure (⟨t, pk.data⟩, some e)
        | none =>
          let (_, rpid, err) ← readBytes (goInt l)
          match err with
          | some e => pure (⟨t, pk.data⟩, some e)
          | none => putLen l fun tmp => pure (⟨t, data ++ tmp ++ rpid⟩, none)
    else pure (⟨t, pk.data⟩, some errKeyType)

/-- public_key.go:115-117 `PublicKey.MarshalText` -/
def PubKey.marshalText (pk : PubKey) : Pan Bytes := pk.string

/-- public_key.go:121-127 `PublicKey.UnmarshalText` -/
def PubKey.unmarshalText (sha : Sha256) (pk : PubKey) (text : Bytes) : Pan (PubKey × Option Err) :=
  match newPublicKeyFromString sha text with
  | .panic w => .panic w
  | .val (_, some e) => .val (pk, some e)
  | .val (some new, none) => .val (new, none)
  | .val (none, none) => .panic "nil pointer dereference"

/-- signature.go:24-45 `NewSignatureString` -/
def newSignatureString (s : Bytes) : Pan (Option Sig × Option Err) :=
  if s.length < 7 || s.take 4 != asc "SIG_" then .val (none, some errSigString)
  else
    match parseKeyType ((s.drop 4).take 2) with
    | none => .val (none, some errSigType)
    | some t =>
      match b58CheckDecodeEosio (s.drop 7) (keyTypeString t) with
      | .panic w => .panic w
      | .val (d, err) => .val (some ⟨t, d⟩, err)

/-- signature.go:47-49 `Signature.String` -/
def Sig.string (s : Sig) : Pan Bytes :=
  match b58CheckEncodeEosio s.data (keyTypeString s.type) with
  | .panic w => .panic w
  | .val t => .val (asc "SIG_" ++ keyTypeString s.type ++ asc "_" ++ t)

/-- signature.go:53-59 `Signature.MarshalABI` -/
def Sig.marshal (s : Sig) : Enc (Option Err) := do
  match ← writeByte s.type with
  | some e => pure (some e)
  | none => writeBytes s.data

/-- signature.go:63-106 `Signature.UnmarshalABI` -/
def Sig.unmarshal (s : Sig) : Dec (Sig × Option Err) := do
  let (t, err) ← readByte
  match err with
  | some e => pure (s, some e)
  | none =>
    if t == 0 || t == 1 then
      let (_, data, err) ← readBytes 65
      pure (⟨t, data⟩, err)
    else if t == 2 then
      let (_, data, err) ← readBytes 65
      match err with
      | some e => pure (⟨t, s.data⟩, some e)
      | none =>
        let (al, err) ← readVaruint
        match err with
        | some e => pure (⟨t, s.data⟩, some e)
        | none =>
          let (_, ad, err) ← readBytes (goInt al)
          match err with
          | some e => pure (⟨t, s.data⟩, some e)
          | none =>
            let (cl, err) ← readVaruint
            match err with
            | some e => pure (⟨t, s.data⟩, some e)
            | none =>
              let (_, cd, err) ← readBytes (goInt cl)
              match err with
              | some e => pure (⟨t, s.data⟩, some e)
              | none => putLen al fun tmp => putLen cl fun tmp' => pure (⟨t, data ++ tmp ++ ad ++ tmp' ++ cd⟩, none)
    else pure (⟨t, s.data⟩, some errKeyType)

/-- signature.go:116-122 `Signature.UnmarshalText` -/
def Sig.unmarshalText (s : Sig) (text : Bytes) : Pan (Sig × Option Err) :=
  match newSignatureString text with
  | .panic w => .panic w
  | .val (_, some e) => .val (s, some e)
  | .val (some new, none) => .val (new, none)
  | .val (none, none) => .panic "nil pointer dereference"

end Verif
