# Formal model of greymass/go-eosio in Lean 4

## 1. Trusted base

* Lean 4.33.0's kernel. Every property theorem depends on at most `propext`, `Classical.choice`, `Quot.sound`
  (see `Verif/Audit.lean`, which runs `#print axioms` on each of them). No axiom is added, no `sorry`, no
  `native_decide`, no `bv_decide`.
* The faithfulness of the model to the Go text in /repo. Nothing mechanical ties them: each definition carries the file
  and lines it models, and says where it simplifies.
* The Go standard library, modelled by its documented contract (each such definition is marked `stdlib`):
  `encoding/binary` (little/big endian, PutUvarint/ReadUvarint), `io.ReadFull`, `strconv`, `strings.Split`, `fmt.Sprint`
  of an int, `encoding/hex`, `encoding/base64`, `encoding/json`, `math/big`, `time`, `reflect`. SHA-256/512 are modelled
  after the portable code of `crypto/sha256` and `crypto/sha512` (Model/Sha2) and proved equal to FIPS 180-4 (C79); theorems that do not depend on the hash take
  it as a parameter. RIPEMD-160 is in the repository and is modelled down to the bit operations.
* Platform: 64-bit `int`/`uint` (amd64/arm64), as the README's benchmarks and CI.
* `binary.ReadUvarint` returns `io.EOF` (Go <= 1.17/1.18) or `io.ErrUnexpectedEOF` (later) when the stream ends inside a
  number. CI runs several versions, so the model leaves this choice open: it is an `opaque` Boolean
  (`goLegacyUvarint`) about which no theorem knows anything; every theorem holds for both values.

## 2. Shape of the model

* A Go function that uses an `*abi.Decoder` becomes a `Dec α`: an inductive tree of `io.ReadFull` calls
  (`Verif/Go/Dec.lean`). The tree has three other leaves: `ret`, `panic` (Go run-time panic) and `diverge` (unbounded
  recursion, used only with fuel). The same tree is run over a byte list, or over an
  `io.Reader` with an arbitrary schedule of short reads and faults. So "for every read schedule" is a theorem about one
  induction over trees, and covers every decode function of the model at once.
* A Go function that uses an `*abi.Encoder` becomes an `Enc α`: a tree of `Write` calls, run over `bytes.Buffer` (never
  fails) or a writer with an arbitrary fault schedule.
* Go `error` is `Option Err`; functions returning `(T, error)` return both components, because several callers look at
  the value even when the error is set. Unmarshalling into a pointer takes the previous content and returns the new one,
  so that "destination unchanged on error" and "reuse of a destination" can be stated.
* Go strings and `[]byte` are `List UInt8`. Fixed-width integers are Lean's `UIntN`/`IntN`. Where slice aliasing matters
  (Blob.UnmarshalText) there is a heap model with backing arrays, length and capacity.
* `reflect.Value.IsZero` compares floats by their bits, field by field, as in Go 1.17 (the version in go.mod). Later versions may compare a
  whole struct or array with `==`, where -0.0 counts as zero.
* `make([]T, n)` panics in the model when n > 2^48 (Go's maxAlloc on linux/amd64); memory exhaustion below that is not
  modelled.
* Reflection (`abi.Encoder.Encode`, `abi.Decoder.Decode`): a universe `Ty` of Go types, with a denotation into Lean
  types, so a Go value of type t is an element of `t.denote`. Types that mention themselves through a struct are unfolded to a depth (Model/Recursive); the outcome does not depend on the depth (C77).
* `chain.Abi` encode/decode: dynamic values `DVal` (`interface{}`), the resolver with its memo table, and
  fuel-indexed encodeType/decodeType where running out of fuel is `diverge`.
* The code generator is modelled as a function from a struct description to a small Go AST, with a semantics.

Property theorems live in `Verif/Props/*.lean`, apart from the model (`Verif/Model/*`, `Verif/Go/*`), the specifications
(`Verif/Spec/*`) and helper lemmas (`Verif/Lemmas/*`).

## 3. Plan per property

| id | modelled | how proved |
|----|----------|-----------|
| C01 | Write*/Read* | arithmetic on little-endian digit lists against a positional spec |
| C02,C04,C05 | PutUvarint/ReadUvarint, Write/ReadVar(u)int | induction on 7-bit groups against a LEB128 value spec |
| C03 | 4-byte buffer in WriteVaruint | false of the code: `iff v < 2^28` proved, negation with witness |
| C06 | WriteString, ReadString, []byte, Bytes, Blob | from C02 |
| C07 | io.ReadFull over scheduled readers | one induction over `Dec` trees |
| C08 | all decoders | locality theorem over `Dec` trees + round-trips |
| C09 | every UnmarshalABI, reflection codec | per type, induction over types |
| C10 | `Enc` trees over faulty writers | per function; false for trailing absent optionals: witness |
| C11-C14 | name.go | 13-digit positional argument |
| C15-C20 | symbol.go, asset.go, strconv, strings | decimal digit lists |
| C21-C24 | numbers.go, big.Int as Int | div/mod arithmetic; NewInt128(-2^127) is wrong: witness |
| C25-C28 | bytes.go, checksum.go, blob.go, hex, base64, slice heap | list induction; several negations with witnesses |
| C29-C32 | base58 | positional spec, ten-digit block refinement |
| C33-C35 | public_key.go, signature.go | from C32 (ripemd concrete, sha256 a parameter; made concrete in C79) |
| C36-C39 | action.go, transaction.go | compositional round-trips |
| C40-C45 | abi/encode.go, abi/decode.go reflection | induction over the type universe |
| C46-C54 | chain/abi.go | fuel, termination measure on the memo table, rank functions |
| C55 | Abi struct as an element of the universe | instance of C40 + explicit extension lemma |
| C56,C57 | time.go + civil calendar | calendar round-trip |
| C58,C59 | ripemd160 | buffering refinement to a one-shot spec |
| C60 | codegen | AST semantics vs reflection |
| C61 | encoding.go | directly over functions as parameters |
| C62–C67 | checksums, text methods, symbols, faulty readers, extensions | further observable effects found while modelling: exact languages, failure behaviour |
| C68–C74 | encoding/json over the text methods | documents with a printer and a parser (inverse on well-formed documents; the texts accepted are those of an RFC 8259 grammar given as inductive predicates), then by recursion over a universe of Go types |
| C75 | Asset.FloatValue | exact decimal reading of Asset.String (C19); IEEE 754 values as rational numbers, nearest with ties to even |
| C76 | Action.Decode, DecodeInto | from C47, C50, C53 and C40 |
| C77 | recursive Go types in encode.go, decode.go | unfolding to a depth, simulation between depths, a byte-counting measure for termination |
| C78 | json of the values of Abi.Decode | a relation between values and documents; insertion sort of keys; invariants of everything the decoder can return; shortest decimals of floats, and numbers read as the nearest float64 |
| C79 | checksum.go, base58check.go, crypto/sha256, crypto/sha512 | one generic algorithm at two widths against FIPS 180-4; constants from roots of primes by kernel evaluation |
| C80-C81 | decode.go, UnmarshalABI of every chain type, chainDecoder | a relation per type (Spec/Takes), `Exactly` composed along the monad; structural recursion on the type |
| C82 | Abi.Decode | an inductive relation (Spec/AbiTakes) shown equal to the union over all depths of the relations the decoder accepts |
| C83 | Decode, DecodeVariant, Encode | outcome of the run against "returns an error and the whole input is left" |
| C84 | Encode, Decode of structs | outcome against that of the struct with all fields named; which field an embedding struct holds is an inductive relation |
| C85 | Encode, MarshalABI of every chain type | a function that names the first obstacle in a value (Spec/Fault) against the outcome of the run |
| C86 | Encode after Decode | from C81 and C85: the wire form is among the accepted strings and is the shortest the value has been read from |
| C87 | JSON documents that fit only in part | laws of composition for members and elements; a relation for names but for letter case; prefixes of base64 |
| C88 | Abi.Encode after Abi.Decode | from C82 and C52: by induction on what was accepted, compared with the wire form |
| C89 | Abi.Decode at the end of the input, extensions included | for each decoder exactly where it reports io.EOF and what it leaves (`Dec.Cuts`); then both directions by induction on the depth and on the derivation |
| C90 | How Abi.Encode refuses a value | a relation for the first thing that cannot be written; it decides the outcome (induction on the derivation), and every value is written or has one (induction on the value, and on chains of aliases) |
| C91 | The text of the generated functions | templates parsed and executed in the model; the resulting text run through a lexer of Go given as a state machine; token lists of lines compose, field by field |
| C92 | How generated code and the methods of package chain can end | type soundness: a predicate on the trees of reads and writes that is kept by sequencing, by induction on statements and on the depth of structs |
| C93 | Decode at the end of the input, extension fields included | one predicate for success and io.EOF (`Dec.Does`) that is kept by sequencing; for fields also the variable that holds io.EOF; induction on types |
| C94 | How Decode refuses an input | a relation of failures (`Dec.Faults`) kept by sequencing, with the successes of C93 in front; uniqueness from the determinism of runs; recursive types by the depth of C77 |
| C95 | How Abi.Decode refuses an input | one step of each decoder as an equivalence on failures; soundness by induction on the depth, completeness on the derivation; recursion without end as an infinite chain of calls, with results growing in the depth |
| C96 | What decoding yields and allocates is bounded by the input | a measure of values against the length of what `Ty.Takes` accepts, by induction on the type; counterexamples for every announced length |
| C97 | The number of bytes Encode writes | a size function on values against the wire form of C85, by induction on the type |
| C98 | The codec of Go types and the codec of ABI definitions agree | a relation between Go types and ABI types, by which the exact grammars of C81 and C82 and the wire forms of C40 and C47 coincide |
| C99 | What a failed Decode leaves in the destination | a relation between the previous content, the input and the content after the error, over the grammars of C81 and C93 |
| C100 | Decode and shared memory | `Ty.Holds`: which value an address stands for and which memory it occupies; a program on memory alike a program on values |
| C101 | A writer that runs full | `Enc.runFull`: a writer with room for n bytes; what is missing when nil is returned |
| C102 | A stream of values that may be cut anywhere | loops over Encode and Decode; `Complete`: which values fit in n bytes |
| C103 | Changes of an ABI and the types they leave alone | `SameMeaning`, `Unshadowed`, `Grown`: what a name means in two ABIs |
| C104 | Encode and shared memory, copies | `Ty.Holds`, the memory a value occupies (C100) |
| C105 | ABI structs that get a further field | `Abi.Extends`; the exact grammars of C89 and C47 split at the new field |
| C106 | Values of an ABI type one after the other on one stream, cut anywhere | `Abi.writeLog`, `Abi.readLog`; the loop of C102 over `Abi.Encode` and `Abi.Decode` |
| C107 | Go structs and variants that get further fields | `Fields.append`, `Fields.join`; equations between programs, no grammar |
| C108 | The text of time values sorts as the values do | the byte order `<` of lists against the order of the numbers; by way of `UtcText` (C57) and the calendar stepped day by day |
| C109 | How long the texts of values are | lengths as numbers; keys and signatures by way of `Base58Text` (C31) |
| C110 | Values whose pointers share or form cycles | `Mentions`, `Ranked`, `Endless` on memory (`Graph`): addresses in the place of structs |
| C111 | Variants read by DecodeVariant and by Abi.Decode | `TwinAlts`: fields that are pointers to declarations of the alternatives; `Holds`: only field i is set, to the value |
| C112 | Structs with variants, read by Decode and by Abi.Decode | `KinBody`: TwinBody with a further kind of field, a struct of pointers tagged variant; `KinBody.av`: a variant as the pair of name and value |
| C113 | Decode and Abi.Decode refuse inputs with the same error | `TwinBody` of C98; the results of both calls compared directly |
| C114 | Encode, Decode of types with methods of the user | a format per declared type, given as a relation; `MTy.Layout` puts the formats together; the methods are assumed to keep their formats and nothing else |
| C115 | Encode, Decode: errors of methods of the user | `MTy.Broken`: the bytes up to the part that fails; `MTy.Spoiled`: data one part refuses |
| C116 | DecodeVariant of types with methods of the user | `Chosen`: one pointer leads to the value, the others are nil |
| C117 | Decode, DecodeVariant: acceptance, with methods of the user | `MTy.Takes`: the relation of C81 with a given relation for each declared type |
| C118 | Encode: how it ends, with methods of the user | `MTy.fault`: the first thing that cannot be written, with a given outcome for each method; `MTy.Wire` |
| C119 | Decode, then Encode, then Decode, with methods of the user | `Matched`: methods that write what they read; no further notion of form |
| C120 | Decode of structs that embed a type of package chain | `Fields.EmbedTakes`: what the embedded type accepts, the other fields zero |

Properties that the unchanged code violates are kept in the list as users rely on them; for these the manifest says
`partial`, the negation is proved with a concrete witness and the largest true part is proved in general
(section 5 is the list of such findings).

## 4. What is modelled, what is not

Modelled function by function (file in /repo: Lean module):

| repository | model |
|---|---|
| pkg/abi/encode.go, decode.go: Write*/Read* methods | Model/Prim |
| pkg/abi/encode.go, decode.go: Encode/Decode by reflection, tags, variants, custom functions | Model/Reflect (encoding/json-like struct tags already parsed) |
| pkg/abi/decode.go: Decode, DecodeVariant into memory (pointers, slices and maps as addresses) | Model/Memory (slices are whole arrays, no pointers into structs or arrays) |
| pkg/abi/encode.go: Encode from memory | Model/MemoryEncode (same simplifications) |
| pkg/chain/name.go | Model/Name |
| pkg/chain/symbol.go, asset.go | Model/Symbol, Model/Float; strconv's floats in Go/Float |
| pkg/chain/numbers.go | Model/Numbers |
| pkg/chain/bytes.go, blob.go, checksum.go | Model/Blob |
| pkg/base58 | Model/Base58 |
| pkg/ripemd160 | Model/Ripemd (all of it, to the bit) |
| crypto/sha256 and crypto/sha512 as used by checksum.go and base58check.go | Model/Sha2 |
| pkg/chain/public_key.go, signature.go | Model/Keys |
| pkg/chain/action.go, transaction.go, permission level, … | Model/Tx, Model/ActionDecode |
| pkg/chain/time.go | Model/Time, Model/TimeText; package time in Go/Time |
| pkg/chain/abi.go: types and getters, resolver, allFields, encodeType/Inner, decodeType/Inner, DecodeAction/EncodeAction | Model/Abi |
| pkg/chain/abi.go: the binary form of an Abi through the reflection codec | Model/AbiReflect |
| pkg/chain/encoding.go | Model/Reflect (custom encoders) |
| the argument checks of Encode, Decode, DecodeVariant | Model/Args |
| methods promoted from embedded fields | Model/Embed (the outermost struct), Model/Methods (`embedding`, any depth) |
| Marshaler, Unmarshaler of types of users (encode.go:80-85, decode.go:146-149, :454-520) | Model/Methods (declared types of all kinds; not as keys of maps or fields tagged variant) |
| DecodeVariant of types of users (decode.go:96-140) | Model/MethodVariants (called by the user or by UnmarshalABI; not for fields tagged variant of types with methods) |
| benchmarks/types.go (hand-written and generated codecs) | Model/Bench |
| pkg/codegen/codegen.go | Model/Codegen (what the functions do), Model/CodegenText (their text); package text/template in Model/Template |
| JSON of all chain types and structs | Model/Json, Model/JsonChain; package encoding/json in Go/Json |

Of encoding/json: signed integers, maps, fixed arrays, interfaces and floats other than for the values of Abi.Decode, plain []byte, struct tags other than a name and omitempty, and the
old elements Go finds behind the length of a slice are left out. When UnmarshalJSON or UnmarshalText returns an error json stops; a value of the
wrong kind is remembered and reading goes on.

Not modelled: actions of text/template the templates do not use, running out of memory below the limit of `make` (2^48 bytes), stack exhaustion other than by endless recursion (`diverge`),
the algorithms by which strconv reads and prints floats (Eisel-Lemire, Ryu: Go/Float says what they compute, by exact arithmetic), texts of floats in hexadecimal, with underscores, inf and nan, concurrency (the package starts no goroutines and has no shared mutable state besides read-only
tables), Go types that are recursive without a struct (`type L []L`), decoding into values with cycles of pointers (encoding them: C110), slices that overlap in part and pointers into structs and arrays, the texts of most error messages, test helpers in internal/assert, package chain's
constants of the network ids.

### Does the model compute what the code computes?

The code cannot be run here, but the project's own tests say what it computes on chosen inputs. `Verif/Vectors/` evaluates the model on those inputs: every
expectation in the test files of pkg/abi, pkg/chain, pkg/base58 and pkg/ripemd160 is there as an `example`, except
the million-letter hash, the fuzz targets and the benchmarks. All of them hold of the model. These are tests of the model, not proofs of properties,
and no property is claimed on their account.

## 5. Findings

Places where the code does not do what the property says. Each is proved, with a concrete witness or for all inputs as stated.

| # | finding | theorem |
|---|---|---|
| 1 | WriteVaruint has a 4-byte buffer: every value from 2^28 on panics, so does WriteVarint from 2^27 on. This limits every length. | C03_violated, C39_panics_iff |
| 2 | ReadVaruint accepts redundant encodings (C05 is the exact behaviour). | C05_* |
| 3 | The error of writing the presence byte of an optional is dropped, in the reflection codec and in Abi.Encode; the error of writing or reading Action.Account likewise. | C10_violated, C10_optional_violated, C10_abi_violated, C66_violated |
| 4 | NewName of a string of 2^32 bytes or more ignores the string. | C14_violated_4GiB |
| 5 | Asset.String panics for precisions above 18 that can be decoded; the smallest amount is printed with two minus signs. | C19_violated, C19_panics_iff, C17_violated_min |
| 6 | NewInt128 is wrong for -2^127, and text out of range wraps. | C22_violated, C22_wraps |
| 7 | Bytes.UnmarshalText never reports an error. | C25_violated |
| 8 | Checksum*.UnmarshalText panics on short text, ignores the rest of long text. | C26_violated |
| 9 | Blob.UnmarshalText overwrites the caller's bytes behind the text when padding. | C28_violated |
| 10 | base58 decoding panics on runes above 255; with it key and signature parsing. | C30_violated, C34_violated |
| 11 | NewPublicKeyFromString panics on short strings; legacy text of keys with a first byte of 30 or more does not round-trip. | C33_violated, C33_violated_legacy |
| 12 | Action.UnmarshalABI appends to the authorizations already present. | C37_violated |
| 13 | Reflection: types that can be encoded but not decoded and the other way round; pointers to pointers. | C40_violated |
| 14 | The custom encoder function is not called for names behind pointers and inside chain types. | C61_violated |
| 15 | A decoded variant cannot be encoded. | C44_violated, C44_violated_field, C44_violated_single |
| 16 | Hostile input panics: impossible lengths in make, variant indexes from 2^63 on; some Go types panic on every input. | C45_violated, C45_variant_violated, C45_types_violated |
| 17 | The ABI resolver panics on names of fewer than two characters. | C46_violated, C46_panics_iff |
| 18 | Abi: bytes is written without its length; eosio::name can be written but not read; what Decode yields for bytes is refused by Encode. | C47_violated, C51_violated |
| 19 | Cyclic ABI definitions make Decode and Encode recurse for ever. | C49_violated, C49_encode_violated, C49_diverges |
| 20 | Structs without fields are taken for builtin types. | C50_violated |
| 21 | Binary extensions: absent ones decode as zero, some truncations count as absence, `T?$` and `T?[]` are misunderstood. | C54_*_violated, C67_violated |
| 22 | TimePoint text loses microseconds and is not read back outside the years 0 to 9999; instants that do not fit wrap around silently. | C57_*, C56_before_2000 |
| 23 | UnmarshalText of Uint128, Int128 and Blob changes the destination although it fails. | C63_violated |
| 24 | An Action with an authorization count of 2^63 decodes to no authorizations through UnmarshalABI but panics by reflection. | C42_violated |
| 25 | Generated code does not compile for arrays without slices, `[][]byte`, slices of structs of the same package, pointers to slices and arrays, two pointer fields, maps. | C60_array_violated, C60_bytes_violated, C60_struct_slice_violated, C60_ptr_list_violated, C60_two_pointers_violated, C60_map_violated |
| 26 | Generated MarshalABI writes the elements of `[][]byte` without lengths. | C60_bytes_violated |
| 27 | Generated UnmarshalABI dereferences nil for pointers to types with methods. | C60_nil_violated |
| 28 | Generated UnmarshalABI keeps old content for absent optionals and ignores extension tags; the generator panics on optionals that are not pointers. | C60_stale_violated, C60_extension_violated, C60_optional_violated |
| 29 | Signature.MarshalText has a pointer receiver, unlike all others: a Signature in a value, map or interface is written to JSON as an object with Type and Data, which json.Unmarshal refuses. | C68_signature_violated |
| 30 | Reading an unpadded Blob from JSON overwrites the closing quote in the caller's JSON text. | C28_json_violated |
| 31 | ABI strings that are not UTF-8 are changed by JSON (a property of encoding/json). | C70_invalid_utf8_violated |
| 32 | json.Unmarshal of an ABI over one in use keeps old error_messages, abi_extensions and variants, as Marshal omits empty ones. | C70_reuse_violated |
| 33 | Asset.FloatValue panics for the smallest value; for symbols with more than 18 decimals, which can be decoded, it is wrong or panics. | C75_violated_min, C75_decimals_violated |
| 34 | Action.Decode cannot decode actions without parameters and ignores data behind the value. | C76_empty_violated, C76_trailing_violated |
| 35 | Decode of a struct whose first field is a pointer to the same type, or of one that starts with such an extension, recurses for ever on every input. | C77_unguarded_violated |
| 36 | Decode recurses as deep as the input asks for: for `struct { Children []T }` every byte 1 is a level, so that an input of some megabytes exhausts the stack, which Go cannot recover from. | C77_depth_linear |
| 37 | Float128.UnmarshalText accepts hex of any length: short text leaves the old bytes behind it, long text is cut. | C24_float128_any_length |
| 38 | json.Marshal of decoded values fails for NaN and infinite floats, panics for assets with 64 decimals or more, and writes signatures as `{"Type":…,"Data":…}` instead of their text (the method has a pointer receiver). | C78_nan_violated, C78_asset_violated, C78_signature_violated |
| 39 | What json.Unmarshal makes of a document is no input for Abi.Encode: it refuses float64 for integers and strings for names, assets, keys and all other chain types. | C78_back_violated |
| 40 | A field whose type is declared as `[]byte` or as an integer type: generated code calls MarshalABI and UnmarshalABI, which the type need not have; reflection encodes it. | C60_declared_violated |
| 41 | Asset.String of an asset with 19 to 63 decimals, which can be decoded, prints a wrong number, possibly with a sign in the middle, if the value reaches 10^decimals wrapped to 64 bits. | C19_wide |
| 42 | Decode returns io.EOF for every struct whose last field is an absent extension, as the error that was to be ignored stays in the variable that is returned (decode.go:241-245, :307). So decoding any ABI without a variants section, as written for eosio::abi/1.0, fails, with all its content in place. | C43_extension_last_violated, C55_no_variants_violated, C107_old_data_violated |
| 43 | Decode(nil), DecodeVariant(nil) and Encode(nil) panic; so does Decode of a nil pointer to bool, string, a number, []byte or a type of package chain, after reading, where nil pointers to other types are refused with an error. | C83_violated, C83_nil_basic_violated, C83_nil_chain_violated |
| 44 | A struct that embeds exactly one type of package chain has its MarshalABI and UnmarshalABI: Encode writes and Decode reads only that field, all others are silently dropped. Embedding Asset or a checksum, Encode(s) writes all fields and Encode(&s) one. | C84_encode_violated, C84_decode_violated, C84_violated, C84_asset_violated |
| 45 | A field called `_` with the tag optional is written by Encode (as a presence byte) but passed over by Decode, so what was encoded decodes to another value. Without the tag Encode panics at such fields. | C86_blank_differs |
| 46 | A type alias for an optional type: Abi.Decode yields nil where it is absent, Abi.Encode refuses that nil, as the name of the alias does not end in '?'. With two fields of one name Decode keeps the last value, which Encode may refuse for the first. | C88_alias_violated, C88_duplicate_violated |
| 47 | An `asset$` whose input ends after the amount decodes without an error as that amount with the symbol 0, a `public_key$` cut after its type byte as a key of 33 zeros. | C89_half_violated |
| 48 | An extension field that is cut off between two of its elements counts as absent: its elements are dropped and Decode returns io.EOF as for an absent one, or nil if a field that takes no bytes (struct{}, [0]T) follows. | C93_silent_violated |
| 49 | Memory is allocated in the announced length before anything is read: at most 7 bytes of input make Decode allocate 2^48 bytes for a string or byte slice, or a slice of 2^48 bytes, and only then return io.EOF. | C96_buffer_violated, C96_slice_violated |
| 50 | A slice of empty structs is decoded element by element although its elements take no bytes: ten bytes of input keep Decode busy for 2^63-1 turns. With an ABI, an array of an alias of an extension type is filled up with zero values at the end of the input: seven bytes give 2^44 elements without an error. | C96_loop_violated, C96_abi_violated |
| 51 | A Go struct and an ABI struct of the same shape differ on the wire in two places: an optional field that is no pointer is written as absent if it is zero, while Abi.Encode writes the zero; the number of a variant alternative is one byte for Decode but LEB128 for Abi.Decode, so 80 00 is alternative 0 for one and out of range for the other. | C98_optional_violated, C98_variant_violated |
| 52 | A failed Decode is not undone: an asset of which only the amount is there gets this amount and symbol 0; a struct keeps the fields read before the error; a union loses the member it held. | C99_undone_violated |
| 53 | Decoding a second time into the same variable changes copies of the first result: an array is used again if the announced length is the same, and so is the variable behind a pointer. `for { dec.Decode(&x); all = append(all, x) }` collects values that share memory. | C100_loop_violated |
| 54 | If two pointers in the destination are equal, what is decoded through the second replaces what was decoded through the first. | C100_alias_violated |
| 55 | On a writer that runs full, Encode returns nil if only the flags of absent optional fields at the end are missing; Abi.Encode returns nil if the first missing byte is the flag of an optional value, even if its value is missing as well. | C101_reflect_violated, C101_abi_violated |
| 56 | io.EOF from Decode does not mean that the stream ended after a value: a string, slice, map or struct of which whole parts are missing gives io.EOF as well, so a loop that ends at io.EOF takes a stream with a torn last value for complete. | C102_eof_violated |
| 57 | An ABI may define a type with the name of a builtin type (struct, variant or alias `uint8`); it is accepted and silently changes every type that mentions the name. | C103_shadow_violated |
| 58 | A binary extension of an ABI struct cannot be left out when encoding: a map without it is refused, so callers of an ABI break when a contract adds an extension. | C105_leave_out_violated |
| 59 | Binary extensions are accepted in structs that are not at the end of the data; bytes written before the extension was added are then read as something else without an error. | C105_inside_violated |
| 60 | A loop over Decode with a type that is an extension (`T$`), or a struct of extensions only, does not end when the stream does: the zero value without an error is returned for ever. | C106_endless_violated |
| 61 | `TimePoint.String` of a later instant can sort before that of an earlier one: from the year 10000 on the year has five digits, before the year 0 a sign. | C108_timePoint_violated |
| 62 | `Encode` keeps no record of where it has been: on a value whose pointers form a cycle it recurses until the stack is exhausted or the writer is full, and shared structs are written once per path, 2^k of them for k + 1 in memory. | C110_ring, C110_cycle, C110_paths |
| 63 | The number of elements at which `make` panics depends on the size of an element: `Decode` and `Abi.Decode` of the same data panic on different inputs. | C113_panic_violated |
| 64 | A MarshalABI defined on the pointer is ignored by Encode for all values not directly behind a pointer (fields and elements too), while Decode calls the UnmarshalABI of the type: what is written is not read back. Encode of a nil pointer to a type with MarshalABI on the value panics, of other nil pointers it returns an error. | C114_violated, C114_ignored, C114_nil_violated |
| 65 | An io.EOF returned by the UnmarshalABI of a field tagged extension is swallowed although data was read; Decode goes on with the next field and may return no error. | C115_eof_violated |
| 66 | DecodeVariant of a type with UnmarshalABI reads one byte, drops it and calls the method. Data written by Encode is not read back, and an UnmarshalABI that calls DecodeVariant with its receiver calls itself once per byte of the input and returns io.EOF. | C116_violated, C116_self_violated |
