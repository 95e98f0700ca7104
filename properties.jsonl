{"id": "C01", "title": "Fixed-width integers are written little-endian and read back unchanged", "statement": "Encoder.WriteUint8/16/32/64 and WriteInt8/16/32/64 emit exactly 1/2/4/8 bytes whose little-endian (two's complement for signed) value is the argument, and the matching Read method returns that argument and consumes exactly those bytes, whatever follows them. Float32/Float64 are carried bit-for-bit.", "quantifier": "every value of each of the eight integer types and every 32/64-bit float pattern, every suffix of the stream", "why_tests_cant": "2^64 values per type; tests sample a handful", "anchors": ["pkg/abi/encode.go:WriteUint16..WriteInt64,WriteFloat32,WriteFloat64", "pkg/abi/decode.go:ReadUint64..ReadInt8,ReadFloat32,ReadFloat64"]}
{"id": "C02", "title": "Varuint round-trip and minimality", "statement": "For every v that WriteVaruint accepts, the bytes written are the minimal LEB128 encoding of v (no redundant trailing zero group), and ReadVaruint on those bytes followed by anything returns v and leaves exactly what followed.", "quantifier": "every accepted uint, every suffix", "why_tests_cant": "unbounded suffixes and 2^28 values", "anchors": ["pkg/abi/encode.go:WriteVaruint", "pkg/abi/decode.go:ReadVaruint"]}
{"id": "C03", "title": "Every varuint32/varint32 can be written", "statement": "WriteVaruint succeeds for every 32-bit unsigned value and WriteVarint for every 32-bit signed value (the ranges of the EOSIO types varuint32 and varint32) and never panics.", "quantifier": "every 32-bit value", "why_tests_cant": "the failing boundary is in the middle of the range; a test has to guess it", "anchors": ["pkg/abi/encode.go:WriteVaruint,WriteVarint"]}
{"id": "C04", "title": "Varint (zig-zag) round-trip", "statement": "For every v that WriteVarint accepts, ReadVarint on the bytes written followed by anything returns v and leaves what followed; the bytes are the LEB128 encoding of 2v for v>=0 and -2v-1 for v<0.", "quantifier": "every accepted int, every suffix", "why_tests_cant": "2^28 values", "anchors": ["pkg/abi/encode.go:WriteVarint", "pkg/abi/decode.go:ReadVarint"]}
{"id": "C05", "title": "ReadVaruint is total and bounded", "statement": "On every byte stream ReadVaruint returns (never panics), reads at most 10 bytes, stops at the first byte below 0x80, returns the LEB128 value when that fits 64 bits and an error otherwise; it reports an error when the stream ends inside the number.", "quantifier": "every byte sequence", "why_tests_cant": "infinitely many inputs", "anchors": ["pkg/abi/decode.go:ReadVaruint"]}
{"id": "C06", "title": "Strings and byte slices round-trip with a length prefix", "statement": "WriteString, Encode([]byte), Bytes and Blob write the length as varuint followed by the raw bytes; reading returns the same bytes (any bytes, not only valid UTF-8) and consumes nothing more.", "quantifier": "every byte string shorter than 2^28, every suffix", "why_tests_cant": "unbounded", "anchors": ["pkg/abi/encode.go:WriteString,Encode", "pkg/abi/decode.go:ReadString,Decode", "pkg/chain/bytes.go", "pkg/chain/blob.go"]}
{"id": "C07", "title": "Decoding does not depend on how the reader splits the stream", "statement": "Decoding the same byte sequence gives the same value, the same error and the same remaining input however io.Reader chops it: any sequence of short reads, empty reads, and EOF reported together with or after the last bytes.", "quantifier": "every decode operation, every byte stream, every read schedule", "why_tests_cant": "schedules are unbounded", "anchors": ["pkg/abi/decode.go:ReadBytes"]}
{"id": "C08", "title": "Decoding consumes exactly the encoded value", "statement": "When a value is decoded from its encoding followed by other data, the reader is left positioned at the first byte of that other data; and if a decode succeeds without hitting the end of its input then appending more data changes neither the result nor the number of bytes consumed.", "quantifier": "every decode operation, every input and suffix", "why_tests_cant": "unbounded suffixes", "anchors": ["pkg/abi/decode.go:Decode"]}
{"id": "C09", "title": "Truncated input is reported", "statement": "Decoding any proper prefix of an encoding returns a non-nil error (io.EOF or io.ErrUnexpectedEOF), never a value with a nil error, for every type without binary-extension fields.", "quantifier": "every supported value, every proper prefix of its encoding", "why_tests_cant": "every cut point of every value", "anchors": ["pkg/abi/decode.go:ReadBytes,DecodeValue", "pkg/chain/action.go:UnmarshalABI", "pkg/chain/transaction.go:UnmarshalABI"]}
{"id": "C10", "title": "Write errors are reported", "statement": "If the io.Writer fails at any point during an Encode (or MarshalABI, or Abi.Encode), the call returns a non-nil error, that of the first failing write, and what was written is the beginning of the encoding.", "quantifier": "every value, every failure schedule of the writer", "why_tests_cant": "every fault position", "anchors": ["pkg/abi/encode.go:EncodeValue", "pkg/chain/action.go:MarshalABI", "pkg/chain/abi.go:encodeType"]}
{"id": "C11", "title": "Name -> string -> Name is the identity", "statement": "NewName(n.String()) == n for every 64-bit name.", "quantifier": "all 2^64 names", "why_tests_cant": "2^64", "anchors": ["pkg/chain/name.go:stringToName,nameToString"]}
{"id": "C12", "title": "Name strings are canonical", "statement": "n.String() has at most 13 characters, uses only .1-5a-z (the 13th only .1-5a-j) and has no trailing dot; and for each string of that form NewName(s).String() == s.", "quantifier": "all names and all canonical strings", "why_tests_cant": "2^64 names", "anchors": ["pkg/chain/name.go:nameToString,trimRightDots"]}
{"id": "C13", "title": "Name order is string order", "statement": "For any two names, comparing the uint64 values gives the same result as comparing their strings padded with dots to 13 characters lexicographically (so table scopes and bounds behave as the strings do).", "quantifier": "all pairs of names", "why_tests_cant": "2^128 pairs", "anchors": ["pkg/chain/name.go"]}
{"id": "C14", "title": "NewName is total and ignores everything after 13 bytes", "statement": "NewName accepts every byte string without panicking, treats any byte outside 1-5a-z as '.', and its result depends only on the first 13 bytes (the 13th reduced to 4 bits).", "quantifier": "every string below 4 GiB (longer ones wrap the uint32 length)", "why_tests_cant": "unbounded strings", "anchors": ["pkg/chain/name.go:stringToName,charToSymbol"]}
{"id": "C15", "title": "Symbol text round-trip", "statement": "For every symbol made by NewSymbol, NewSymbolFromString(s.String()) == s; MarshalText/UnmarshalText of Symbol and SymbolCode round-trip.", "quantifier": "every precision 0..18 and every name of 0..7 letters A-Z", "why_tests_cant": "8e9 symbols", "anchors": ["pkg/chain/symbol.go"]}
{"id": "C16", "title": "NewSymbol validates and its accessors invert it", "statement": "NewSymbol(p,n) succeeds exactly when p<=18 and n has at most 7 characters all in A-Z; then Decimals()==p, Name()==n, Precision()==10^p, Code() is the name packed in 7 bytes; distinct (p,n) give distinct symbols.", "quantifier": "every uint8 and every byte string", "why_tests_cant": "unbounded strings", "anchors": ["pkg/chain/symbol.go:rawSymbolValue,Name,Decimals,Precision,Code"]}
{"id": "C17", "title": "Asset text round-trip", "statement": "For every asset whose symbol came from NewSymbol with a non-empty name, NewAssetFromString(a.String()) returns an equal asset.", "quantifier": "every int64 value and every valid symbol", "why_tests_cant": "2^64 values x 8e9 symbols; the failing value is a single one", "anchors": ["pkg/chain/asset.go:String,NewAssetFromString"]}
{"id": "C18", "title": "Asset parsing accepts exactly the documented grammar and keeps the number", "statement": "NewAssetFromString(s) succeeds exactly on '-'? digits with at most one '.', at most 18 digits after the point, at least one digit, one space and 1..7 letters A-Z, with the digit string in int64 range; then Value is that digit string read as an integer (so Value/10^Decimals is the decimal number written) and Decimals the number of digits after the point.", "quantifier": "every byte string", "why_tests_cant": "unbounded strings", "anchors": ["pkg/chain/asset.go:NewAssetFromString"]}
{"id": "C19", "title": "Asset.String never panics", "statement": "Asset.String() returns for every asset, including any asset decoded from the wire, and prints the number Value/10^Decimals.", "quantifier": "every int64 and every 64-bit symbol", "why_tests_cant": "2^128 assets", "anchors": ["pkg/chain/asset.go:String", "pkg/chain/symbol.go:Precision"]}
{"id": "C20", "title": "Asset and ExtendedAsset binary round-trip", "statement": "Asset encodes as 8 bytes value + 8 bytes symbol, ExtendedAsset adds 8 bytes contract; decoding returns an equal value for all bit patterns.", "quantifier": "all assets, all suffixes", "why_tests_cant": "2^128", "anchors": ["pkg/chain/asset.go:MarshalABI,UnmarshalABI"]}
{"id": "C21", "title": "Uint128 is an exact 128-bit natural", "statement": "BigInt() == Hi*2^64+Lo; NewUint128 inverts it and panics above 128 bits; String/NewUint128FromString round-trip; NewUint128FromString rejects negatives and anything of more than 128 bits.", "quantifier": "all 128-bit values and all big integers", "why_tests_cant": "2^128", "anchors": ["pkg/chain/numbers.go:Uint128"]}
{"id": "C22", "title": "Int128 is an exact two's complement 128-bit integer", "statement": "BigInt() is the two's complement value; NewInt128(i).BigInt()==i for every i in [-2^127,2^127) and String/NewInt128FromString round-trip for every Int128.", "quantifier": "all 128-bit values", "why_tests_cant": "2^128; the failing value is a single one", "anchors": ["pkg/chain/numbers.go:NewInt128,Int128.BigInt"]}
{"id": "C23", "title": "Uint64 and BlockNum JSON round-trip", "statement": "MarshalJSON prints the decimal number, quoted exactly when it exceeds 2^32-1; UnmarshalJSON inverts it, accepts quoted and unquoted forms, and for BlockNum rejects everything above 2^32-1.", "quantifier": "all uint64, all byte strings", "why_tests_cant": "2^64", "anchors": ["pkg/chain/numbers.go:readUintJSON,writeUintJSON"]}
{"id": "C24", "title": "Uint128/Int128/Float128 binary round-trip", "statement": "They encode as 16 bytes (little-endian for the integers) and decode to an equal value.", "quantifier": "all 128-bit patterns, all suffixes", "why_tests_cant": "2^128", "anchors": ["pkg/chain/numbers.go:MarshalABI,UnmarshalABI"]}
{"id": "C25", "title": "Bytes text form", "statement": "UnmarshalText(MarshalText(b)) yields b for every b, and UnmarshalText reports an error on text that is not hex.", "quantifier": "every byte string", "why_tests_cant": "unbounded", "anchors": ["pkg/chain/bytes.go"]}
{"id": "C26", "title": "Checksum text form", "statement": "For Checksum160/256/512, UnmarshalText(MarshalText(c)) yields c; UnmarshalText rejects text of any other length with an error and never panics.", "quantifier": "every checksum and every byte string", "why_tests_cant": "unbounded", "anchors": ["pkg/chain/checksum.go:UnmarshalText"]}
{"id": "C27", "title": "Blob text form", "statement": "UnmarshalText(MarshalText(b)) yields b for every b, also with the '=' padding removed or cut to a single '='.", "quantifier": "every byte string", "why_tests_cant": "unbounded", "anchors": ["pkg/chain/blob.go:UnmarshalText"]}
{"id": "C28", "title": "Unmarshalling text does not modify the caller's buffer", "statement": "UnmarshalText leaves the backing array of the text it is given unchanged.", "quantifier": "every text slice and every spare capacity behind it", "why_tests_cant": "depends on aliasing and capacity, invisible to value-level tests", "anchors": ["pkg/chain/blob.go:UnmarshalText"]}
{"id": "C29", "title": "Base58 Decode inverts Encode", "statement": "base58.Decode(base58.Encode(b)) == b for every byte slice.", "quantifier": "every byte string", "why_tests_cant": "unbounded", "anchors": ["pkg/base58/base58.go:Encode,Decode"]}
{"id": "C30", "title": "Base58 Encode inverts Decode on alphabet strings; other strings decode to empty", "statement": "Encode(Decode(s)) == s for each s over the 58-letter alphabet; for any other string Decode returns an empty slice and does not panic.", "quantifier": "every string", "why_tests_cant": "unbounded", "anchors": ["pkg/base58/base58.go:Decode", "pkg/base58/alphabet.go"]}
{"id": "C31", "title": "Base58 is positional notation", "statement": "Encode(b) is one '1' per leading zero byte followed by the base-58 digits (no leading zero digit) of the big-endian number b; the ten-digits-at-a-time arithmetic never overflows uint64/int64.", "quantifier": "every byte string", "why_tests_cant": "carries between 10-digit blocks", "anchors": ["pkg/base58/base58.go:Encode"]}
{"id": "C32", "title": "Check-encoded base58 verifies", "statement": "CheckDecode(CheckEncode(b))==b and CheckDecodeEosio(CheckEncodeEosio(b,x),x)==b; a successful CheckDecode(s) means s decodes to payload followed by the four checksum bytes of payload; fewer than four bytes is ErrInvalidFormat and a wrong checksum is ErrChecksum.", "quantifier": "every payload, suffix and input string", "why_tests_cant": "unbounded", "anchors": ["pkg/base58/base58check.go"]}
{"id": "C33", "title": "Public key text round-trip", "statement": "NewPublicKeyFromString(pk.String()) returns pk for each key of type K1, P1, WA with any data; the legacy form round-trips for each 33-byte K1 key; no string makes NewPublicKeyFromString panic.", "quantifier": "every key, every string", "why_tests_cant": "unbounded", "anchors": ["pkg/chain/public_key.go"]}
{"id": "C34", "title": "Signature text round-trip", "statement": "NewSignatureString(s.String()) returns s for each signature of type K1, P1, WA; no string makes it panic.", "quantifier": "every signature, every string", "why_tests_cant": "unbounded", "anchors": ["pkg/chain/signature.go"]}
{"id": "C35", "title": "Public key and signature binary round-trip", "statement": "Keys and signatures with well-formed data (33/65 bytes, or the WebAuthn layout) round-trip through MarshalABI/UnmarshalABI; an unknown type byte is an error.", "quantifier": "every well-formed key and signature, every suffix", "why_tests_cant": "unbounded WebAuthn payloads", "anchors": ["pkg/chain/public_key.go:UnmarshalABI", "pkg/chain/signature.go:UnmarshalABI"]}
{"id": "C36", "title": "Action and transaction binary round-trip", "statement": "Decoding the encoding of any Action, TransactionHeader, TransactionExtension or Transaction into a zero value returns an equal value and consumes exactly the encoding.", "quantifier": "every transaction whose lengths are below 2^28, every suffix", "why_tests_cant": "unbounded lists", "anchors": ["pkg/chain/action.go", "pkg/chain/transaction.go"]}
{"id": "C37", "title": "Decoding overwrites the destination", "statement": "Decoding into a variable that already holds a value gives the same result as decoding into a zero value.", "quantifier": "every type, every previous content", "why_tests_cant": "histories of reuse", "anchors": ["pkg/chain/action.go:UnmarshalABI", "pkg/abi/decode.go:DecodeValue"]}
{"id": "C38", "title": "Transactions with equal encodings are equal", "statement": "The encoding of Action/Transaction is injective, so digests are taken over a faithful representation; the layout is the documented concatenation of fields.", "quantifier": "all pairs of transactions", "why_tests_cant": "pairs of unbounded values", "anchors": ["pkg/chain/transaction.go:MarshalABI", "pkg/chain/action.go:MarshalABI"]}
{"id": "C39", "title": "Action.Digest is the SHA-256 of the action's encoding", "statement": "Digest never panics for actions with lengths below 2^28 and equals SHA-256 of the ABI encoding; changing any field changes the hashed bytes.", "quantifier": "every action", "why_tests_cant": "unbounded", "anchors": ["pkg/chain/action.go:Digest"]}
{"id": "C40", "title": "Reflection codec round-trip", "statement": "For every Go type built from bool, string, integers, floats, int/uint, []byte, chain types, pointers, slices, arrays, maps and structs with optional fields, Decode(Encode(v)) yields v (nil and empty slices identified).", "quantifier": "every such type and value", "why_tests_cant": "types and values are unbounded", "anchors": ["pkg/abi/encode.go:Encode,EncodeValue", "pkg/abi/decode.go:Decode,DecodeValue"]}
{"id": "C41", "title": "Map iteration order is irrelevant", "statement": "Whatever order Go iterates a map in, decoding the bytes gives back the same map; duplicate keys in the input keep the last value.", "quantifier": "every map, every iteration order", "why_tests_cant": "Go randomises the order", "anchors": ["pkg/abi/encode.go:EncodeValue", "pkg/abi/decode.go:DecodeValue"]}
{"id": "C42", "title": "Fast path and reflection agree", "statement": "Encoding a chain type through its MarshalABI gives the same bytes as encoding a structurally identical plain struct through reflection, and the same for decoding.", "quantifier": "every transaction", "why_tests_cant": "unbounded", "anchors": ["pkg/chain/encoding.go", "benchmarks/types.go"]}
{"id": "C43", "title": "Optional, extension and variant fields", "statement": "An optional field reads one presence byte and is zero when absent; an extension field is zero when the input ends before it, which is no error; a variant index out of range is an error and otherwise exactly the selected member is non-nil.", "quantifier": "every struct and input", "why_tests_cant": "unbounded", "anchors": ["pkg/abi/decode.go:DecodeValue,DecodeVariant"]}
{"id": "C44", "title": "A value with a variant-tagged field can be encoded", "statement": "Every value that decodes through an eosio:\"variant\" field can be re-encoded to the same bytes.", "quantifier": "every variant value", "why_tests_cant": "unbounded", "anchors": ["pkg/abi/encode.go:EncodeValue", "pkg/abi/decode.go:DecodeVariant"]}
{"id": "C45", "title": "Hostile input never panics the decoder", "statement": "No byte sequence makes Decode, UnmarshalABI or Abi.Decode panic.", "quantifier": "every byte sequence", "why_tests_cant": "infinitely many inputs", "anchors": ["pkg/abi/decode.go:ReadBytes,DecodeValue", "pkg/chain/transaction.go:UnmarshalABI", "pkg/chain/abi.go:decodeType"]}
{"id": "C46", "title": "ABI type resolution terminates", "statement": "Resolving a type name terminates for every ABI, including mutually recursive ones, and the result describes each reachable type exactly as the ABI does; a malformed or very short type name is reported as an error, not a panic.", "quantifier": "every ABI and every type name", "why_tests_cant": "cyclic ABIs", "anchors": ["pkg/chain/abi.go:resolver.resolve"]}
{"id": "C47", "title": "ABI-driven round-trip", "statement": "Abi.Decode(Abi.Encode(T, v)) yields v for each ABI, type and well-typed value.", "quantifier": "every ABI, type and value", "why_tests_cant": "unbounded", "anchors": ["pkg/chain/abi.go:encodeType,decodeType"]}
{"id": "C48", "title": "Struct inheritance order", "statement": "The fields of base structs precede the struct's own fields, outermost base first, in encoding and decoding.", "quantifier": "every ABI, every inheritance chain", "why_tests_cant": "unbounded chains", "anchors": ["pkg/chain/abi.go:allFields"]}
{"id": "C49", "title": "ABI decoding terminates", "statement": "Abi.Decode terminates on every input for every ABI.", "quantifier": "every ABI and input", "why_tests_cant": "cyclic types", "anchors": ["pkg/chain/abi.go:decodeType"]}
{"id": "C50", "title": "Structs without fields", "statement": "An ABI struct with no fields encodes to nothing and decodes from nothing.", "quantifier": "every ABI", "why_tests_cant": "ABI-dependent", "anchors": ["pkg/chain/abi.go:allFields"]}
{"id": "C51", "title": "ABI 'bytes' values round-trip", "statement": "A value of ABI type bytes decoded by Abi.Decode can be passed back to Abi.Encode and yields the same bytes.", "quantifier": "every byte string", "why_tests_cant": "unbounded", "anchors": ["pkg/chain/abi.go:encodeInner,decodeInner"]}
{"id": "C52", "title": "ABI encoding is strictly typed", "statement": "Abi.Encode succeeds only if the value has the Go type the ABI type calls for at every position; missing non-optional fields are errors, undeclared map keys are ignored.", "quantifier": "every ABI, type and value", "why_tests_cant": "unbounded", "anchors": ["pkg/chain/abi.go:encodeInner"]}
{"id": "C53", "title": "ABI lookups return the first match", "statement": "GetTable/GetAction/GetStruct/GetType/GetVariant return the first entry with the given name and nil exactly when there is none; DecodeAction/EncodeAction fail with an error for an unknown action.", "quantifier": "every ABI and name", "why_tests_cant": "unbounded", "anchors": ["pkg/chain/abi.go:GetTable"]}
{"id": "C54", "title": "Binary extensions in ABI types", "statement": "A '$' field absent at the end of the input decodes as absent with no error; truncation inside the field is still an error; type suffixes '?','$','[]' are parsed as the EOSIO ABI defines.", "quantifier": "every ABI and input", "why_tests_cant": "unbounded", "anchors": ["pkg/chain/abi.go:decodeType,resolve"]}
{"id": "C55", "title": "The ABI definition itself round-trips in binary form", "statement": "Decoding the binary encoding of any chain.Abi value returns an equal value; an ABI encoded without the trailing variants section decodes with no variants and no error.", "quantifier": "every ABI", "why_tests_cant": "unbounded", "anchors": ["pkg/chain/abi.go:Abi"]}
{"id": "C56", "title": "Time values and time.Time", "statement": "NewTimePoint(tp.Time())==tp, NewTimePointSec(t.Time())==t, NewBlockTimestamp(b.Time())==b for every value; NewBlockTimestamp rounds to the nearest half second.", "quantifier": "every 64/32-bit value, every instant", "why_tests_cant": "2^64", "anchors": ["pkg/chain/time.go"]}
{"id": "C57", "title": "Time text round-trip", "statement": "NewTimePointSecFromString(t.String())==t and NewBlockTimestampFromString(b.String())==b for every 32-bit value; TimePoint text keeps milliseconds; a trailing Z is accepted.", "quantifier": "every 32-bit value", "why_tests_cant": "calendar corner cases", "anchors": ["pkg/chain/time.go"]}
{"id": "C58", "title": "RIPEMD-160 does not depend on write boundaries", "statement": "Writing a message in any sequence of pieces and calling Sum gives the same digest as writing it at once; Sum may be called at any time without disturbing later writes; the internal 'd.nx != 0' panic is unreachable.", "quantifier": "every message, every chunking", "why_tests_cant": "unbounded", "anchors": ["pkg/ripemd160/ripemd160.go:Write,Sum"]}
{"id": "C59", "title": "RIPEMD-160 is the published function", "statement": "The digest equals the RIPEMD-160 function as specified (padding, message schedule, five rounds on two lines).", "quantifier": "every message below 2^61 bytes", "why_tests_cant": "unbounded", "anchors": ["pkg/ripemd160/ripemd160block.go:_Block"]}
{"id": "C60", "title": "Generated codecs agree with reflection", "statement": "The MarshalABI/UnmarshalABI source emitted by codegen for a struct of supported fields is valid Go and reads/writes the same bytes as the reflection codec.", "quantifier": "every struct type", "why_tests_cant": "unbounded types", "anchors": ["pkg/codegen/codegen.go:GenUnmarshalFn"]}
{"id": "C61", "title": "Custom encode/decode functions take precedence", "statement": "With NewCustomEncoder/NewCustomDecoder the custom function sees every value first; chain types are used only when it declines; an error from it stops the operation.", "quantifier": "every custom function and value", "why_tests_cant": "higher-order", "anchors": ["pkg/chain/encoding.go:NewCustomDecoder,NewCustomEncoder"]}
{"id": "C62", "title": "Checksum binary form", "statement": "Checksum160/256/512 encode as their 20/32/64 bytes and decode back to an equal value, whatever the destination held.", "quantifier": "every checksum, every suffix, every previous content", "why_tests_cant": "2^160 and more values", "anchors": ["pkg/chain/checksum.go:MarshalABI,UnmarshalABI"]}
{"id": "C63", "title": "A failed text or JSON unmarshal leaves the destination unchanged", "statement": "Whenever UnmarshalText/UnmarshalJSON of a chain type returns an error, the destination still holds its previous value.", "quantifier": "every type, every input, every previous value", "why_tests_cant": "unbounded inputs", "anchors": ["pkg/chain/numbers.go:UnmarshalText", "pkg/chain/blob.go:UnmarshalText", "pkg/chain/symbol.go", "pkg/chain/asset.go", "pkg/chain/checksum.go"]}
{"id": "C64", "title": "BlockNum.String is ten digits and sorts numerically", "statement": "BlockNum.String is exactly ten decimal digits whose value is the number, so comparing the strings byte-wise compares the numbers.", "quantifier": "all pairs of uint32", "why_tests_cant": "2^64 pairs", "anchors": ["pkg/chain/numbers.go:BlockNum.String"]}
{"id": "C65", "title": "Exact language of NewSymbolFromString", "statement": "NewSymbolFromString accepts exactly an optionally signed decimal number of value 0..18, a comma and at most seven letters A-Z, and returns the symbol of that precision and name; everything else is an error.", "quantifier": "every string", "why_tests_cant": "unbounded strings", "anchors": ["pkg/chain/symbol.go:NewSymbolFromString"]}
{"id": "C66", "title": "Read faults are reported", "statement": "If the io.Reader returns an error other than at the end of the data during a decode, the decode returns a non-nil error; it never returns a value that is not on the stream with a nil error.", "quantifier": "every type, every fault schedule of the reader", "why_tests_cant": "every fault position", "anchors": ["pkg/abi/decode.go:ReadBytes", "pkg/chain/action.go:UnmarshalABI"]}
{"id": "C67", "title": "A truncated extension field is an error", "statement": "Input that ends inside an eosio:\"extension\" field is reported as an error; only input that ends before the field is taken as its absence.", "quantifier": "every field type, every proper non-empty prefix of its encoding", "why_tests_cant": "every truncation point of unbounded values", "anchors": ["pkg/abi/decode.go:DecodeValue"]}
{"id": "C68", "title": "JSON round-trip", "statement": "json.Unmarshal into a new variable reads what json.Marshal writes for any struct, slice or pointer type built from the chain types, bool, strings and unsigned integers: the value is the same but for nil Bytes/Blob, which become empty, and omitempty fields, which become zero.", "quantifier": "every type, every value whose leaves have readable text", "why_tests_cant": "unbounded types and values", "anchors": ["pkg/chain/*.go:MarshalText,UnmarshalText,MarshalJSON,UnmarshalJSON", "pkg/chain/signature.go:MarshalText"]}
{"id": "C69", "title": "Actions and transactions round-trip through JSON", "statement": "Every Action and every Transaction marshals to JSON and is read back unchanged (nil slices of bytes as empty ones), whatever the destination held.", "quantifier": "every action and transaction, every previous value", "why_tests_cant": "unbounded", "anchors": ["pkg/chain/action.go:Action", "pkg/chain/transaction.go:Transaction"]}
{"id": "C70", "title": "ABI definitions round-trip through JSON", "statement": "An Abi marshals to JSON and is read back as the same definition, with error_messages, abi_extensions and variants left out when empty.", "quantifier": "every ABI", "why_tests_cant": "unbounded", "anchors": ["pkg/chain/abi.go:Abi"]}
{"id": "C71", "title": "json.Marshal of chain types gives valid JSON", "statement": "Whatever the value, the output of json.Marshal is one JSON document; text that is not JSON is refused by json.Unmarshal without touching the destination.", "quantifier": "every type and value, every text", "why_tests_cant": "unbounded", "anchors": ["pkg/chain/*.go:MarshalText,MarshalJSON"]}
{"id": "C72", "title": "The order of members and unknown members do not matter in JSON", "statement": "Adding a member whose name matches no field changes nothing, and reordering the members of an object gives the same value.", "quantifier": "every struct, every object, every order", "why_tests_cant": "factorially many orders", "anchors": ["pkg/chain/transaction.go", "pkg/chain/abi.go", "pkg/chain/action.go"]}
{"id": "C73", "title": "JSON form of actions and transactions", "statement": "An Action is written as an object with account, name, authorization (a list of objects with actor and permission) and data in lower-case hex, a Transaction as an object with the nine documented members, expiration in ISO 8601 to the second; names and keys are never escaped.", "quantifier": "every action and transaction", "why_tests_cant": "unbounded", "anchors": ["pkg/chain/action.go:Action", "pkg/chain/transaction.go:Transaction"]}
{"id": "C74", "title": "json.Unmarshal accepts exactly the documents that fit the type", "statement": "For a document without repeated names, json.Unmarshal into a type built from the chain types succeeds with value w exactly if every member that names a field fits that field and w has these values there and the old ones elsewhere; no error of a member or element is lost. A text is taken for a document exactly if it is one by RFC 8259, nested at most 10000 deep, and string literals are read as the strings they stand for.", "quantifier": "every type, document, previous value", "why_tests_cant": "unbounded", "anchors": ["pkg/chain/*.go:UnmarshalText,UnmarshalJSON", "pkg/chain/abi.go:Abi"]}
{"id": "C75", "title": "Asset.FloatValue is the float64 nearest to the amount", "statement": "FloatValue never panics and returns the float64 that is nearest to value / 10^decimals, rounded once (ties to even), with the sign of the value.", "quantifier": "every asset", "why_tests_cant": "2^64 values times precisions", "anchors": ["pkg/chain/asset.go:FloatValue"]}
{"id": "C76", "title": "Action.Decode and DecodeInto", "statement": "Decode returns the map whose binary form by the ABI's type of the action is the data, and an error for actions the ABI does not have, for values other than structs and for data that is not exactly one value; DecodeInto reads the value the encoder wrote.", "quantifier": "every ABI, action, value", "why_tests_cant": "unbounded ABIs and values", "anchors": ["pkg/chain/action.go:Decode,DecodeInto"]}
{"id": "C77", "title": "Recursive Go types", "statement": "Struct types that mention themselves (through pointers, slices and maps) are encoded and decoded: Encode ends on every finite value, Decode ends on every input and reads back what Encode wrote, and the depth of the recursion is bounded independently of the input.", "quantifier": "every set of type declarations, every value, every input", "why_tests_cant": "unbounded depth", "anchors": ["pkg/abi/decode.go:DecodeValue", "pkg/abi/encode.go:EncodeValue"]}
{"id": "C78", "title": "Decoded ABI values as JSON", "statement": "json.Marshal of whatever Abi.Decode returns gives one valid JSON document that describes the value (structs as objects, lists as arrays, chain types by their text, integers in decimal, floats with the fewest digits that read back as the same float), independent of the order of maps; reading that document back and encoding it by the same ABI gives the bytes the value was decoded from.", "quantifier": "every ABI, type, input", "why_tests_cant": "unbounded types and values", "anchors": ["pkg/chain/abi.go:Decode,Encode", "pkg/chain/*.go:MarshalText,MarshalJSON"]}
{"id": "C79", "title": "Checksum256Digest and Checksum512Digest are SHA-256 and SHA-512", "statement": "For every message shorter than 2^61 bytes, Checksum256Digest returns the 32 bytes of its SHA-256 and Checksum512Digest the 64 bytes of its SHA-512 as FIPS 180-4 defines them (padding, schedule, rounds, and the constants as bits of the roots of the first primes). Action.Digest is the SHA-256 of the binary form of the action, and base58.CheckEncode and CheckDecode use the first four bytes of the SHA-256 of the SHA-256 of the payload.", "quantifier": "all messages below 2^61 bytes, all actions with lengths below 2^28, all payloads and texts", "why_tests_cant": "A test compares digests of a few short messages; errors in padding show only at particular lengths modulo the block size, and constants are compared with other tables, not with their definition.", "anchors": ["pkg/chain/checksum.go:31-49", "pkg/chain/action.go:42-49", "pkg/base58/base58check.go:16-68"]}
{"id": "C80", "title": "Exactly which bytes the chain types and the reading methods accept", "statement": "For every chain type and every reading method there is an explicit relation between byte strings and values such that decoding succeeds with a value, leaving r, exactly if the input is a byte string related to the value followed by r. It is the wire form with these freedoms and no others: numbers and lengths in LEB128 may be padded to ten bytes, every byte but 0 is true, a number of authorizations of 2^63 or more counts as none, lengths inside WebAuthn keys and signatures are stored in minimal form. No accepted string is a proper prefix of another.", "quantifier": "every type, every input, every continuation, every way the stream can end", "why_tests_cant": "The set of inputs is infinite and tests only try well-formed ones; what else is accepted, and as what, is never tested.", "anchors": ["pkg/abi/decode.go:ReadByte..ReadVarint", "pkg/chain/*.go:UnmarshalABI"]}
{"id": "C81", "title": "Exactly which bytes Decode and DecodeVariant accept", "statement": "For every Go type without extension fields, Decode into a new variable succeeds with v, leaving r, exactly if the input is a byte string that the type relates to v, followed by r; the relation follows the structure of the type: an optional field is absent after 0 and present after any other byte, a variant is one byte that is the number of a member whose fellows can be nil, a map keeps the last of several entries with one key, slices must fit the address space, unexported fields, unsupported kinds and, behind two pointers, small basic types accept nothing. DecodeVariant likewise. A variable that holds something accepts the same.", "quantifier": "every type, every input", "why_tests_cant": "unbounded types and inputs", "anchors": ["pkg/abi/decode.go:Decode", "pkg/abi/decode.go:DecodeValue", "pkg/abi/decode.go:DecodeVariant", "pkg/chain/encoding.go:chainDecoder"]}
{"id": "C82", "title": "Exactly which bytes Abi.Decode accepts", "statement": "For every ABI and every type that mentions no binary extension, Abi.Decode returns v without an error, leaving r, exactly if the input is a byte string that the type accepts as v, followed by r. The accepted strings are the wire forms with these freedoms and no others: counts, indexes and numbers in LEB128 may be padded, every presence byte but 0 stands for a value, every byte but 0 is true; a struct gives a map with the last value for each name; a slice must fit the address space. No accepted string is a proper prefix of another.", "quantifier": "every ABI, type, input, every way the stream can end", "why_tests_cant": "unbounded ABIs and inputs; malformed inputs are not tested", "anchors": ["pkg/chain/abi.go:Decode", "pkg/chain/abi.go:decodeType", "pkg/chain/abi.go:decodeInner"]}
{"id": "C83", "title": "Arguments that are no place to decode into", "statement": "Decode and DecodeVariant given nil, a value that is not a pointer, or a nil pointer return an error, read nothing and do not panic; given a pointer to a variable they decode into the variable. Encode given nil returns an error.", "quantifier": "every argument, every input, every way the stream can end", "why_tests_cant": "Tests pass pointers to variables.", "anchors": ["pkg/abi/decode.go:30-94", "pkg/abi/decode.go:97-101", "pkg/abi/encode.go:28-81", "pkg/chain/encoding.go:chainDecoder"]}
{"id": "C84", "title": "Structs with embedded fields", "statement": "Encode and Decode treat embedded fields of a struct like others: all fields are written and read one after the other, whether the struct or a pointer to it is passed and whether its type is declared.", "quantifier": "every struct type, every choice of embedded fields, every value, every input", "why_tests_cant": "Tests encode structs with named fields.", "anchors": ["pkg/abi/encode.go:79-92", "pkg/abi/decode.go:143-149", "pkg/abi/decode.go:454-520"]}
{"id": "C85", "title": "Exactly which Go values Encode writes, and how it fails for others", "statement": "Encode writes a value exactly if no pointer in it is nil, no unexported field is reached, every declared basic type is a 32 or 64 bit integer and every length, int and uint is within the bounds of the varuint writer; optional fields with their zero value are not looked at. What it writes is the wire form. Otherwise the first obstacle in the order of the wire decides: nil pointers and unsupported types are errors, nil pointers to types of package chain, unexported fields and numbers out of bounds are panics. MarshalABI of the chain types returns no errors.", "quantifier": "every type, every value", "why_tests_cant": "unbounded types and values; which of several obstacles decides", "anchors": ["pkg/abi/encode.go:28-152", "pkg/chain/encoding.go:chainEncoder"]}
{"id": "C86", "title": "Encoding what was decoded", "statement": "A value that Decode returned can be encoded unless it holds a length or number above the bound of the varuint writer, where Encode panics; Encode never returns an error for it. What is written decodes to the same value and is no longer than what was decoded. Likewise MarshalABI after UnmarshalABI.", "quantifier": "every decodable type without extension fields, every input", "why_tests_cant": "inputs that are not in canonical form are not tested", "anchors": ["pkg/abi/encode.go:28-152", "pkg/abi/decode.go:30-309"]}
{"id": "C87", "title": "json.Unmarshal of documents that fit only in part", "statement": "Members of an object and elements of an array are read in order, each into what the ones before it left. A member belongs to the field of exactly its name, otherwise to the first one of the same name but for letter case (U+212A counts as k, U+017F as s); members of other names are skipped. A value of the wrong kind and a number out of range leave their variable as it was and are reported after all else has been read; an error of UnmarshalText or UnmarshalJSON ends reading at once. null sets pointers, slices, Bytes and Blob to nil and leaves everything else. Text that is refused leaves its variable as it was, except that Uint128 and Int128 become zero and a Blob the bytes of the longest part at the start that can be decoded; Bytes refuse nothing and are left as they were by text that is not hexadecimal.", "quantifier": "every type, document and previous value", "why_tests_cant": "What is left in a variable after an error depends on the order of members and on every type involved; tests look at the error only.", "anchors": ["pkg/chain/*.go:UnmarshalText,UnmarshalJSON", "pkg/chain/blob.go:52-63", "pkg/chain/bytes.go:51-58"]}
{"id": "C88", "title": "Encoding what Abi.Decode returned", "statement": "If Abi.Decode returns v without error having read w, then Abi.Encode of v to the same type writes bytes that are no longer than w and that Abi.Decode reads as v again; so decoding and encoding brings every accepted form of a value to one form.", "quantifier": "every ABI whose structs have no two fields of one name, every type without extensions, every input", "why_tests_cant": "Redundant forms (counts and indexes with superfluous bytes, presence bytes and bools other than 1, repeated types of a variant) do not come from this encoder, so round-trip tests never decode them.", "anchors": ["pkg/chain/abi.go:Decode", "pkg/chain/abi.go:Encode", "pkg/chain/abi.go:encodeType", "pkg/chain/abi.go:decodeType"]}
{"id": "C89", "title": "Abi.Decode when the input ends early, with binary extensions", "statement": "For every ABI and type, extensions included, the value, the rest of the input and the absence of an error are determined as follows: a complete byte string is read as what it stands for; at the end of the input a type '$' gives what its parts have left when io.EOF is reported, which is only before the first byte of a piece that is read at once; inside an element of an array and before a presence byte io.EOF remains an error, also for extensions. What is returned without an error and is not complete has used up an input that ends with io.EOF; from a source that ends with another error exactly the complete byte strings are read. Where Decode returns io.EOF, and with what in the destination, is determined likewise.", "quantifier": "every ABI without types that make resolving panic, every type, every input and every error at its end", "why_tests_cant": "Each place at which the input can end is a case of its own, in every nesting of types.", "anchors": ["pkg/chain/abi.go:403-575", "pkg/abi/decode.go:312-446"]}
{"id": "C90", "title": "How Abi.Encode refuses a value", "statement": "Every Go value is either written in its wire form or there is a first thing in it, in the order of the wire, that cannot be written, and that decides how Encode ends: 'found nil' where a value is missing and its type is not optional; 'expected slice' for an array or variant, 'expected map' for a struct and 'expected type' for a builtin or unknown type given a value of another Go type; 'expected two elements', 'expected string variant name' and 'unknown variant' for variants; a panic for counts, indexes, lengths and numbers of 2^28 or more (C03); endless recursion for an alias that leads back to itself. Up to there the bytes of everything before it are written. Encode returns no other errors and recurses without end for no other types.", "quantifier": "every ABI without types that make resolving panic, every type, every Go value of interface type", "why_tests_cant": "The error depends on the whole path to the offending part and on all that comes before it; values that no test constructs (nil in arrays, pairs of the wrong shape) are the point.", "anchors": ["pkg/chain/abi.go:144-401"]}
{"id": "C91", "title": "The text of the generated functions", "statement": "For every struct name, field names and field types, the text GenUnmarshalFn returns (templates read and executed as package text/template does, white space trimmed as the markers say) divides into exactly the Go tokens of two functions: MarshalABI, which writes the fields in order with the statements of C60, and UnmarshalABI, which reads them, each with the variables its statements need declared before them and nothing else. GenUnmarshalFn panics exactly when a field tagged optional is not a pointer.", "quantifier": "every struct type, every identifier as its name and as names of its fields, every text of a type", "why_tests_cant": "The text is put together from nested templates with conditions; a test compares it for a few structs only, and the compiler only sees structs somebody generated.", "anchors": ["pkg/codegen/codegen.go:10-326"]}
{"id": "C92", "title": "How generated code and the methods of package chain can end", "statement": "MarshalABI and UnmarshalABI of every type of package chain, and of every struct whose generated code compiles, return for every value, every writer and every reader, also those that fail, or end in a runtime panic: index out of range, nil pointer dereference and, when reading, makeslice. They never recurse without end, and generated code that compiles never does anything the type checker has to prevent: an expression has the type of the variable it stands for, and a type is found for every expression that can stand for one. The same holds of single statements, also those the generator never makes.", "quantifier": "every type of package chain, every struct, nested to any depth, every value, every behaviour of the writer and the reader", "why_tests_cant": "The rules of the compiler and the effect of the statements are two definitions; tests run code that compiles and cannot show that nothing else would be reached.", "anchors": ["pkg/codegen/codegen.go:10-326", "pkg/chain/action.go:53-99", "pkg/chain/transaction.go:28-185", "pkg/chain/public_key.go:79-111", "pkg/chain/signature.go:63-106"]}
{"id": "C93", "title": "Decode at the end of the input, with extension fields", "statement": "For every Go type, with fields tagged extension anywhere, and every input, Decode and DecodeVariant return a value and nil exactly as follows: fields are read in order; an extension whose reading ends with io.EOF becomes its zero value and io.EOF is kept; whatever is read next clears it, blank and absent optional fields do not; nil is returned if it is clear at the end. They return io.EOF exactly if it is kept at the end, with all fields in place, or if the input ends with io.EOF before the first byte of a piece that is read at once, in a field that is no extension, an element, a key or a member; the input is used up then. For every type of package chain it is stated where in its wire form io.EOF is reported: in an Action anywhere in the first two names, in a PermissionLevel anywhere in the first. From a source that ends with another error no extension is taken as absent.", "quantifier": "every type built from those of C40 (maps without pointers and floats in keys), every input and every error at its end", "why_tests_cant": "Where the input can end and which fields follow an extension are a case each, in every nesting of types.", "anchors": ["pkg/abi/decode.go:30-308", "pkg/chain/action.go:78-99", "pkg/chain/transaction.go:108-185"]}
{"id": "C94", "title": "How Decode refuses an input", "statement": "For every Go type and every input Decode and DecodeVariant either give exactly one value or fail in exactly one way: with one error, by a panic, or by recursion without end. The error is decided by where the input stops fitting: fixed-size reads give the error of the reader, with io.EOF replaced by io.ErrUnexpectedEOF after the first byte; numbers of more than 64 bits, counts negative as an int, unknown key types, members out of bounds and unsupported types each have one message; counts make cannot allocate, fields that are not exported and members that cannot be nil panic. No other error exists: it is the error of the reader, io.ErrUnexpectedEOF for io.EOF, or one of seven messages; a reader that breaks is never reported as the end of the input. Recursion without end happens only for types that mention themselves, and not if every mention is behind a byte of input.", "quantifier": "every type built from those of C40 (maps without pointers and floats in keys), extension fields included, every input and every error at its end; recursive types at every depth", "why_tests_cant": "A test for an error picks one broken input; the error depends on the type, the position and the rest of the input, and the absence of other errors is a statement on all of them.", "anchors": ["pkg/abi/decode.go:30-308", "pkg/abi/decode.go:311-452", "pkg/chain/action.go:78-99", "pkg/chain/transaction.go:108-185", "pkg/chain/public_key.go:79-111", "pkg/chain/signature.go:63-106"]}
{"id": "C95", "title": "How Abi.Decode refuses an input", "statement": "For every ABI, every type name and every input, Abi.Decode given enough stack either gives exactly one value (C89), or fails in exactly one way, or recurses without end, and which is decided by the first part in the order of the wire that does not fit: a presence byte that is missing, a count that is cut off, too large or cannot be allocated, a member number that is cut off, out of range (an error) or negative as an int (a panic), a builtin type that fails as C94 says, a type name that is neither defined nor builtin. io.EOF is forgiven to an extension at its own value and at its count, not in its elements and not at its presence byte. The error is that of the reader, io.ErrUnexpectedEOF in place of io.EOF, or one of five messages. It recurses without end exactly if the calls on the parts, with the inputs they are called on, go on without end. DecodeAction fails in the same way with the type of the action, and for unknown actions with its own error.", "quantifier": "every ABI, every type name for which resolving does not panic (C46), every input and every error at its end", "why_tests_cant": "The failure depends on the definitions of all types on the path, on what was read before, and on markers of the type names; recursion without end cannot be observed by a test at all.", "anchors": ["pkg/chain/abi.go:119-142", "pkg/chain/abi.go:403-575"]}
{"id": "C96", "title": "What decoding yields and allocates is bounded by the input", "statement": "A value decoded without an error holds no more than the input it was read from: the bytes of its strings, the elements of its slices and the entries of its maps together, at all depths, are at most the number of bytes read. This holds for all types whose slice elements and map entries take at least a byte each, for UnmarshalABI of all chain types, and for arrays decoded with any ABI unless extensions are missing at the end of the input. The code does not keep to it otherwise: a slice of empty structs makes up to 2^63-1 turns for ten bytes; an array of an alias of an extension gets all its elements from a length alone; and before any element is read, strings, byte slices and slices are allocated in the announced length, up to 2^48 bytes for at most ten bytes of input, so that the destination has as many elements as announced even if an error is returned.", "quantifier": "every type, every input and every error at its end; every announced length up to the allocation limit", "why_tests_cant": "A test sees the memory taken by a few inputs; the bound is on all inputs, and the inputs that exceed it announce lengths that a test machine cannot allocate.", "anchors": ["pkg/abi/decode.go:253-274", "pkg/abi/decode.go:311-325", "pkg/abi/decode.go:188-203", "pkg/chain/abi.go:403-575", "pkg/chain/action.go:78-99", "pkg/chain/transaction.go:108-185"]}
{"id": "C97", "title": "The number of bytes Encode writes", "statement": "Whenever Encode writes a value without an error, and whenever MarshalABI of a chain type does, the number of bytes written is given by a formula in the value: fixed widths for the fixed types, one byte for each seven bits of a number or length, 16 bytes for each authorization of an action, 11 bytes and two numbers for the header of a transaction, one byte for the presence of an optional field, and the sums for structs, arrays, slices and maps. The order in which a map is written does not change it. A value that is decoded without an error and can be written was read from at least that many bytes.", "quantifier": "every type written out in full and every value of it; every chain type and value; every input decoded without an error", "why_tests_cant": "A test compares the length of a few encodings; the formula is about all values, with boundaries at every power of 128.", "anchors": ["pkg/abi/encode.go:28-156", "pkg/abi/encode.go:159-245", "pkg/chain/action.go:53-74", "pkg/chain/transaction.go:28-104", "pkg/chain/public_key.go:69-77", "pkg/chain/signature.go:53-61"]}
{"id": "C98", "title": "The codec of Go types and the codec of ABI definitions agree", "statement": "For a Go type and an ABI type that describe the same data - structs with fields of the same types in the same order, the fields of a base struct first or in an embedded struct, aliases, arrays as slices of values or of pointers, optional fields as pointers with the tag, and all builtin types - Encode of a Go value and Abi.Encode of the same value as a map write the same bytes; Abi.Decode reads what Encode wrote as that map and Decode reads what Abi.Encode wrote as that value; on every input, what Encode wrote or not, Decode and Abi.Decode succeed together, consume the same bytes and yield the same value, and so do Action.DecodeInto and Action.Decode.", "quantifier": "every ABI, every pair of types so related, every value, every input (as long as slices of its length fit into memory)", "why_tests_cant": "The two codecs are written independently and a test compares them on one type and a few values; the claim is about all definitions, nested at will, and all inputs, including those no encoder produces.", "anchors": ["pkg/abi/encode.go:28-156", "pkg/abi/decode.go:30-308", "pkg/chain/abi.go:119-575", "pkg/chain/action.go:26-40"]}
{"id": "C99", "title": "What a failed Decode leaves in the destination", "statement": "If Decode or DecodeVariant returns an error, the destination holds: for a bool, number or string zero; for most types of package chain the value it had (an asset may hold a new amount with symbol 0, a key or signature the bytes there were filled up with zeros, an action the authorizations read so far behind the old ones, a transaction its parts in order); for a struct the fields before the one that failed as decoded, this field as left by its own decoding, and the fields behind it as they were; for a slice or array the same with elements, in the old slice if the number announced is its length and in a new one of zeros otherwise; for a map the pairs read before the failure; for a union the selected member as it was and the others nil. So a failed Decode is not undone.", "quantifier": "every Go type with exported fields, every previous content, every input, every error of the reader", "why_tests_cant": "A test looks at the destination after one failure of one type; the claim is about the point of failure anywhere in any type and about every previous content.", "anchors": ["pkg/abi/decode.go:30-308", "pkg/chain/asset.go:134-153", "pkg/chain/action.go:78-99", "pkg/chain/transaction.go:108-185", "pkg/chain/public_key.go:79-111", "pkg/chain/signature.go:63-106"]}
{"id": "C100", "title": "Decode and shared memory", "statement": "With pointers, slices and maps as addresses in memory: Decode and DecodeVariant into a variable whose content is not reached in two ways read, fail and panic as they do on a value, and the variable then holds the decoded value, again without sharing; memory changes only where the previous content was, and the new content lies there or in new memory. So other variables keep their values and share nothing with the result; decoding into a zero variable changes nothing else and everything it refers to is new. A pointer that is not nil is kept. A slice keeps its array exactly if the announced length is the old one, otherwise it gets a new one and the old array is as it was. A map is kept exactly if it is empty. Therefore copies of a previous result that share an array or a pointer change with it.", "quantifier": "every Go type written out in full, every memory and previous content, every input and every behaviour of the reader", "why_tests_cant": "A test compares values and does not notice that two results share an array; the claim is about all addresses in all memories.", "anchors": ["pkg/abi/decode.go:30-308", "pkg/abi/decode.go:454-520"]}
{"id": "C101", "title": "A writer that runs full", "statement": "On a writer with room for n bytes that writes what fits and returns an error e from then on (a full disk, a closed connection), encoding a value of b bytes does the same as on any other writer if b is at most n. Otherwise the writer has exactly the first n bytes and e is returned, by MarshalABI of every type of package chain (also of PermissionLevel, Action and Transaction, which drop errors on the way), by Encode of every type without optional fields and by Abi.Encode of every type without '?'. With optional fields, Encode returns nil only if nothing but presence flags is missing; with optional types, Abi.Encode returns nil only if the first missing byte is a presence flag. Both happen.", "quantifier": "every value of every type, every ABI, every n and every error; every encode function for the first part", "why_tests_cant": "The claim is about every point at which the writer may run full, for every value.", "anchors": ["pkg/abi/encode.go:28-245", "pkg/chain/abi.go:127-245", "pkg/chain/action.go:53-74", "pkg/chain/transaction.go:64-104"]}
{"id": "C102", "title": "A stream of values that may be cut anywhere", "statement": "Values are encoded one after the other on one stream and decoded in a loop until an error. From the first n bytes of the stream, for any n, the loop yields exactly the values that are complete in them, then io.EOF or io.ErrUnexpectedEOF: io.EOF if the cut is after a value; inside a value exactly if the input ends where Decode reports io.EOF (C93). If the writer runs full (C101), what it has is such a beginning, so the values written completely are recovered. io.EOF does not tell that the stream ended after a value, and with values that take no bytes the loop does not end.", "quantifier": "every type without extension fields, every list of values, every cut, every writer that runs full", "why_tests_cant": "The claim is about every position of the cut in streams of any length.", "anchors": ["pkg/abi/decode.go:30-446", "pkg/abi/encode.go:28-245"]}
{"id": "C103", "title": "Changes of an ABI and the types they leave alone", "statement": "Encode and Decode of a type depend only on the definitions that the type mentions, directly or indirectly. Further structs, variants and aliases after those of an ABI change nothing about a type unless one of them takes precedence over what a name that the type mentions meant before. The order of the definitions does not matter if no two of a kind have the same name. If variants get further alternatives after those they have, everything that could be encoded has the same encoding and everything that could be decoded is decoded to the same value. A new definition with the name of a builtin type is accepted and silently changes the types that mention it; an alternative put before the others changes the meaning of what was written before.", "quantifier": "every pair of ABIs, every type, every value, every input", "why_tests_cant": "ABIs grow over the life of a contract; a test compares two versions on some values, the claim is about all ABIs that differ in such a way and all values and inputs.", "anchors": ["pkg/chain/abi.go:74-117", "pkg/chain/abi.go:119-149", "pkg/chain/abi.go:577-704"]}
{"id": "C104", "title": "Encode and shared memory, copies by way of Encode and Decode", "statement": "With pointers, slices and maps as addresses in memory: Encode of a variable writes, fails and panics as Encode of the value it holds, however often its parts are shared, and no other memory has an influence. Encoding a variable and decoding the result into a zero variable gives a copy that shares no memory with the original or anything else; the original is unchanged, and later changes of one do not affect the other. Parts that are shared in the original are separate in the copy.", "quantifier": "every Go type written out in full, every memory, every value in it", "why_tests_cant": "A test does not see which memory two values share; the claim is about all addresses in all memories.", "anchors": ["pkg/abi/encode.go:28-155", "pkg/abi/decode.go:30-308"]}
{"id": "C105", "title": "ABI structs that get a further field", "statement": "If a struct of an ABI gets one more field at the end, Decode with the new definition reads what Decode with the old one reads, then the new field from what is left; Encode writes what the old one writes of the same map, then the new field. So data written after the change is read with the old definition with the bytes of the new field left over, and if the new field is a binary extension, data written before the change is read with the new definition with the value that stands for its absence. A value without the extension cannot be encoded with the new definition; and where the struct is not the last thing in the data (in an array, before another field) the same bytes are read differently without an error.", "quantifier": "every pair of ABIs that differ in this way, every type of the new field, every value and input", "why_tests_cant": "Compatibility of two definitions is a claim about all values of the old one and all byte strings.", "anchors": ["pkg/chain/abi.go:151-224", "pkg/chain/abi.go:403-470", "pkg/chain/abi.go:577-704"]}
{"id": "C106", "title": "Values of an ABI type one after the other on one stream, cut anywhere", "statement": "Values are encoded with one ABI type one after the other to a stream and decoded in a loop until Decode returns an error. If the type has no binary extension and some value of it has bytes, then for a stream cut after any number of bytes the loop yields exactly the values whose bytes are all there, in order, and then io.EOF or io.ErrUnexpectedEOF; io.EOF if the cut lies between values. If the writer runs full the bytes it has are such a beginning, and the writer's error is returned unless the first byte that is missing is a presence flag. io.EOF is also returned for some cuts inside a value, and for a type that is read from no input (an extension) the loop never ends.", "quantifier": "every ABI, every type name from which no too short name and no extension is reached, every list of values, every cut, every size of the writer", "why_tests_cant": "A test can cut some streams of some types; which of the two errors is returned depends on where inside a value of which type the cut lies.", "anchors": ["pkg/chain/abi.go:Abi.Decode", "pkg/chain/abi.go:Abi.Encode", "pkg/chain/abi.go:decodeType", "pkg/abi/decoder.go"]}
{"id": "C107", "title": "Go structs and variants that get further fields", "statement": "A struct type with further fields at its end is encoded as the struct without them followed by a struct of the further fields, and decoded so, into any destination and for every input and error (if the first fields contain no binary extension). So a program that knows only the first fields reads them from new data and leaves exactly the further fields. Old data are decoded into the new struct with the further field tagged extension: all fields are right, but io.EOF is returned instead of nil. A variant that gets further members (that can be nil) decodes the members it had as before and sets the further ones to nil; the index of a further member is refused by a program that does not know it.", "quantifier": "every list of fields without extension, every list of further fields, every destination, every input; every type of extension field that is not read from no input", "why_tests_cant": "Whether changes of a type are compatible is a statement about all pairs of types and all data; tests fix both.", "anchors": ["pkg/abi/encode.go:EncodeValue", "pkg/abi/decode.go:DecodeValue", "pkg/abi/decode.go:DecodeVariant"]}
{"id": "C108", "title": "The text of time values sorts as the values do", "statement": "Sorting the strings of TimePointSec values, or of BlockTimestamp values, by bytes sorts the values by time, and different values have different strings. For TimePoint this holds in the years 0 to 9999 to the millisecond: the strings compare as the milliseconds rounded down, and are equal if and only if those are. Outside of these years a later TimePoint can have a string that sorts first.", "quantifier": "all pairs of 32-bit values; all pairs of 64-bit values in the years 0 to 9999", "why_tests_cant": "There are 2^64 pairs of TimePointSec alone; ends of months, leap years and years of five digits are where a text order goes wrong.", "anchors": ["pkg/chain/time.go:80-90"]}
{"id": "C109", "title": "How long the texts of values are", "statement": "The text of a name has at most 13 bytes, of a Uint128 at most 39 and of an Int128 at most 40, of bytes and checksums two per byte, of a TimePointSec 19, of a BlockTimestamp 23, of a TimePoint in the years 0 to 9999 23, of a valid symbol at most 10 (of any 64 bits 18), of an asset with a valid symbol at most 29. Base58 uses at least one and at most 56/41 characters per byte, rounded up. The text of a public key of 33 bytes has at most 58 characters, for compressed points exactly 57, and 50 after the prefix in the legacy form; of a signature of 65 bytes at most 102, exactly 101 if its first byte is from 2 to 99.", "quantifier": "all values of the types, all byte strings", "why_tests_cant": "The longest text is found at the ends of ranges of 64 and 128 bits or, for keys and signatures, by comparing powers of 58 and 256; columns and buffers are sized by it.", "anchors": ["pkg/chain/name.go", "pkg/chain/numbers.go", "pkg/chain/symbol.go:44-79", "pkg/chain/asset.go:83-102", "pkg/chain/public_key.go:55-65", "pkg/chain/signature.go", "pkg/chain/time.go:80-90", "pkg/base58/base58.go"]}
{"id": "C110", "title": "Values whose pointers share or form cycles", "statement": "Encode on a value of recursive struct types in memory: if no pointers form a cycle, it ends and writes the tree of all paths, a shared struct once per path (so k + 1 structs can take more than 2^k bytes), and Decode gives back that tree. If the value leads into a cycle, Encode never returns a nil error, whatever the writer does, and does not return at all on a writer that takes everything if nothing in memory is itself an error; a ring of list items fills any writer of bounded room.", "quantifier": "every set of declared struct types, every content of memory, every value, every writer", "why_tests_cant": "A test that follows a cycle does not end; that nothing but a cycle has this effect is a statement about all graphs.", "anchors": ["pkg/abi/encode.go:79-155"]}
{"id": "C111", "title": "Variants read by DecodeVariant and by Abi.Decode", "statement": "A struct of pointers, one for each alternative of a variant of an ABI, in the same order. For an input that begins with a byte below 128, Abi.Decode yields the name and value of an alternative exactly if DecodeVariant stores that value in the field of that number and leaves all others nil, and both leave the same rest. What DecodeVariant stores always is one alternative. With at most 128 alternatives DecodeVariant reads everything Abi.Encode writes. For other numbers they differ: Abi.Decode reads LEB128, DecodeVariant one byte.", "quantifier": "every ABI, every variant whose alternatives are not optional, every struct that declares it, every input whose elements fit in memory", "why_tests_cant": "A test compares the two readers on some variants and values; that they accept the same inputs with the same meaning is about all of them.", "anchors": ["pkg/chain/abi.go:577-704", "pkg/abi/decode.go:DecodeVariant"]}
{"id": "C112", "title": "Structs with variants, read by Decode and by Abi.Decode", "statement": "A Go type of structs, slices, pointers, optional pointers and struct fields tagged variant, and an ABI type of the same shape whose variants have at most 128 alternatives. Whatever Decode reads into the Go type, Abi.Decode reads with the ABI type as the same value, up to the same byte; likewise DecodeInto and Action.Decode on the data of an action. Whatever Abi.Encode writes, Decode reads as the same value. The converse of the first is false: Abi.Decode also reads numbers of alternatives with more bytes than needed.", "quantifier": "every ABI, every type in it, every Go type of that shape, every input whose elements fit in memory", "why_tests_cant": "Types can be nested in any way and to any depth, with variants inside of arrays inside of variants; a test fixes the types.", "anchors": ["pkg/chain/abi.go:577-704", "pkg/chain/abi.go:457-576", "pkg/abi/decode.go:DecodeValue", "pkg/chain/action.go"]}
{"id": "C113", "title": "Decode and Abi.Decode refuse inputs with the same error", "statement": "A Go type and an ABI type that describe the same data, without variants and extensions. If Decode returns an error, Abi.Decode returns the same error or panics; if Abi.Decode returns an error, Decode returns the same error or panics; so where neither panics both succeed or both return the same error, also with readers that break. Likewise DecodeInto and Action.Decode. The panics need not agree: for an array with a huge number of elements one may panic where the other reports the end of the input.", "quantifier": "every ABI, every type in it, every Go type for the same data, every input, every error at the end of the input", "why_tests_cant": "An input can be cut off or wrong at any place of any type; a test fixes the type and a few places.", "anchors": ["pkg/chain/abi.go:577-704", "pkg/abi/decode.go:DecodeValue", "pkg/chain/action.go"]}
{"id": "C114", "title": "Types with methods MarshalABI and UnmarshalABI", "statement": "Declared types whose methods MarshalABI and UnmarshalABI write and read a format of their own, anywhere inside of structs, slices, arrays, values of maps and pointers, also optional. If MarshalABI is defined on the value, or on the pointer and the type occurs directly behind pointers, Encode writes every such part in its format and the rest as usual, and Decode reads any data of that form into any destination. Defined on the value, Encode of a value and of a pointer to it agree, but Encode of a nil pointer panics. Defined on the pointer, MarshalABI is ignored for all values not directly behind a pointer, while Decode still calls UnmarshalABI: such values do not come back.", "quantifier": "every set of declared types with any methods that keep a format, every type built from them, every value, every destination", "why_tests_cant": "Whether the method is found depends on the receiver and on where the type occurs; a test fixes both and the methods.", "anchors": ["pkg/abi/encode.go:79-92", "pkg/abi/decode.go:143-149", "pkg/abi/decode.go:454-520"]}
{"id": "C115", "title": "Errors of the methods MarshalABI and UnmarshalABI", "statement": "Types as in the property before. If the MarshalABI of a part returns an error and nothing is wrong before that part, Encode returns the same error and has written exactly the parts before it in their form, with counts and presence bytes, followed by what the method wrote. If the UnmarshalABI of a part returns an error other than io.EOF on data whose parts before are in their form, Decode returns the same error. For io.EOF this is false: a field tagged extension swallows it, even if the method has read data before, and Decode goes on with the next field.", "quantifier": "every set of declared types with any methods, every type built from them, every part that fails, every destination", "why_tests_cant": "The failing part can be at any place of any type; a test fixes both.", "anchors": ["pkg/abi/encode.go:79-125", "pkg/abi/decode.go:206-269"]}
{"id": "C116", "title": "DecodeVariant and the methods UnmarshalABI", "statement": "A variant is a struct of pointers to its alternatives, which may be declared types with methods as in C114. On an index in range, followed by data of the form of that alternative, DecodeVariant sets that pointer to a new variable with the value and all others to nil, whatever the destination held, and reads nothing else; an index out of range is an error, after one byte, and changes nothing. If the variant itself, or what the argument points to, has UnmarshalABI, one byte is skipped, whatever it is, and the method reads the rest: the format of the type is not read as Decode reads it, and a type whose UnmarshalABI calls DecodeVariant with its receiver reads every input to its end and returns the error found there. Without methods DecodeVariant is the one of the properties above.", "quantifier": "every set of declared types with any methods, every list of alternatives built from them, every index, every value, every destination, every input", "why_tests_cant": "The number and types of alternatives, the methods and the former contents of the destination are arbitrary; that the method calling itself never succeeds is about inputs of any length.", "anchors": ["pkg/abi/decode.go:96-140", "pkg/abi/decode.go:454-520"]}
{"id": "C117", "title": "Exactly which bytes are accepted for types with UnmarshalABI", "statement": "Declared types whose UnmarshalABI reads, into a new variable, exactly the byte strings of a given relation to values, anywhere inside of structs, slices, arrays, values of maps and pointers, also optional, but not in extension fields. Decode into a new variable succeeds with v, leaving r, exactly if the input is a byte string that the type relates to v, followed by r: numbers of elements in any LEB128 form, presence bytes other than 0, and for the declared types what their methods accept. DecodeVariant into a struct of pointers to such types succeeds exactly on an index in range followed by what that alternative accepts, and leaves this pointer set and the others nil, whatever they were. Accepted byte strings have one meaning, and none is a proper prefix of another.", "quantifier": "every set of declared types with any methods, every type built from them, every list of alternatives, every input", "why_tests_cant": "An equivalence over all inputs and all types: that nothing else is accepted cannot be sampled.", "anchors": ["pkg/abi/decode.go:96-308", "pkg/abi/decode.go:454-520"]}
{"id": "C118", "title": "Which values Encode writes if there are types with MarshalABI, and how it fails for others", "statement": "Declared types whose MarshalABI, for each value, writes bytes of a given form, returns a given error or panics. The first thing in a value, in the order of the wire, that cannot be written decides how Encode ends: a method that returns an error or panics, where it is called; a nil pointer, which is an error, or a panic if MarshalABI is defined on the value, or what the method does with it if it is defined on the pointer; a length above the bound of the varuint writer; and what C85 says of the other parts. A value without such a thing is written as its parts are, each declared type in its form where the method is called; nothing else is ever written with success.", "quantifier": "every set of declared types with any methods, every type built from them, every value", "why_tests_cant": "The first fault can be anywhere in values of any depth and length; a test fixes one.", "anchors": ["pkg/abi/encode.go:28-155"]}
{"id": "C119", "title": "Writing what was read, for types with methods", "statement": "Declared types with both methods, MarshalABI on the value, such that MarshalABI returns no error for a value that UnmarshalABI made: it panics or writes, always the same for that value, bytes that UnmarshalABI reads as the value again and that are not longer than what was read. The same then holds for Encode and Decode of all types built from these: Encode returns no error for what Decode put into a new variable; if it does not panic, it writes no more bytes than were read, and Decode reads them as the same value. With MarshalABI on the pointer this is false: the value read from 6 is written as 5 and then read as another.", "quantifier": "every set of declared types with such methods, every type without extension fields built from them, every accepted input", "why_tests_cant": "The accepted inputs of one value are many, and there are infinitely many types.", "anchors": ["pkg/abi/encode.go:28-155", "pkg/abi/decode.go:143-308", "pkg/abi/decode.go:454-520"]}
{"id": "C120", "title": "Exactly which bytes are accepted for structs that embed a type of package chain", "statement": "Declared structs with embedded fields, anywhere inside of structs, slices, arrays, values of maps and pointers, also optional, but not in extension fields. If exactly one embedded field has a type of package chain, Decode into a new variable accepts for such a struct exactly what that type accepts: the field gets its value, all other fields stay zero and nothing is read for them. If the embedded field is a pointer, no input is accepted. All other structs are read field by field. DecodeVariant with such alternatives accepts exactly an index in range followed by what the alternative accepts.", "quantifier": "every set of declared structs with any fields embedded, every type built from them, every list of alternatives, every input", "why_tests_cant": "An equivalence over all inputs and all types: that nothing else is accepted cannot be sampled.", "anchors": ["pkg/abi/decode.go:96-308", "pkg/abi/decode.go:454-520"]}
