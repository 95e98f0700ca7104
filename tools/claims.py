CLAIMS = {
 'C01': ('proved', ''),
 'C02': ('proved', ''),
 'C03': ('partial', 'The claim is false of the code: WriteVaruint/WriteVarint use a 4-byte scratch buffer. Proved: the exact accepted range (v < 2^28, -2^27 <= v < 2^27), panics exactly outside it, and the negation of the full claim (C03_violated).'),
 'C04': ('proved', ''),
 'C05': ('proved', 'Complete case description for every stream.'),
 'C06': ('proved', 'WriteString/ReadString, Bytes, Blob and []byte through the reflection codec; lengths below 2^28 (see C03).'),
 'C07': ('proved', 'One theorem over all decode programs of the model.'),
 'C08': ('proved', 'First half: every round-trip theorem is stated with arbitrary following data. Second half: C08_append, one theorem over all decode programs of the model (reading methods, UnmarshalABI, reflection, dynamic ABI).'),
 'C09': ('proved', 'Reading methods, every UnmarshalABI of pkg/chain, the reflection codec and the dynamic ABI codec for types without extensions.'),
 'C10': ('partial', 'False for PermissionLevel, Action and Transaction with transiently failing writers (C10_violated); proved for them if the writer goes on failing, and without condition for the writing methods and all other chain types. Reflection and dynamic ABI: false wherever an optional is written (C10_optional_violated, C10_abi_violated: the error of the presence flag is dropped), proved for all types without optionals.'),
 'C11': ('proved', ''),
 'C12': ('proved', ''),
 'C13': ('proved', ''),
 'C14': ('proved', 'For strings below 4 GiB; C14_violated_4GiB shows why the bound is needed (uint32(len(s)) wraps).'),
 'C15': ('proved', ''),
 'C16': ('proved', ''),
 'C17': ('partial', 'Proved for every value except -2^63, where the claim is false (C17_violated_min: "--..." is printed and not accepted back).'),
 'C18': ('proved', 'Exact accepted language with the resulting value, and errors otherwise.'),
 'C19': ('partial', 'False of the code: C19_violated (64 or more decimals decoded from the wire: division by zero; C19_panics_iff is the exact set) and C17_violated_min. Proved: correct text for up to 18 decimals and every value but -2^63; C19_wide says for 19 to 63 decimals exactly which texts are right.'),
 'C20': ('proved', ''),
 'C21': ('proved', ''),
 'C22': ('partial', 'False at -2^127 (C22_violated: NewInt128 builds another number). Proved for every other value; C22_newInt128_all and C22_fromString_iff describe what happens to every number and text.'),
 'C23': ('proved', 'C23_unmarshal_iff is the exact accepted language of both types.'),
 'C24': ('proved', 'C24_float128_any_length: the text of a Float128 may have any length; missing digits are not an error and leave the old bytes.'),
 'C25': ('partial', 'Round-trip and acceptance of every hex text proved; the error on other text is never reported (C25_violated), the destination is only left unchanged (C25_not_hex_partial).'),
 'C26': ('partial', 'False of the code: short hex text panics and long hex text is truncated silently (C26_violated). Proved: round-trip and the exact behaviour on every text.'),
 'C27': ('proved', 'Also the exact accepted language.'),
 'C28': ('partial', 'False for Blob (C28_violated: append writes into spare capacity behind the text; C28_json_violated: inside json.Unmarshal that is the caller\'s document). Proved: what is preserved, and exactly which bytes change and when (C28_exact).'),
 'C62': ('proved', ''),
 'C63': ('partial', 'False for Uint128, Int128 and Blob (C63_violated); proved for the other types.'),
 'C64': ('proved', ''),
 'C65': ('proved', ''),
 'C29': ('proved', ''),
 'C30': ('partial', 'False of the code for non-alphabet strings (C30_violated: runes above 255 index past the table and panic). Proved: the round-trip on alphabet strings and the exact outcome (empty or panic) for every other string.'),
 'C31': ('proved', 'uint64/int64 arithmetic is modelled with wrapping integers, so absence of overflow is part of the theorems.'),
 'C32': ('proved', 'SHA-256 is a parameter (any function with 32-byte results); RIPEMD-160 is the published function of C59. Strings on which Decode panics (C30) panic here as well.'),
 'C58': ('proved', 'Any interleaving of Write and Sum calls.'),
 'C59': ('proved', 'For every message; the bit length is taken modulo 2^64.'),
 'C33': ('partial', 'False of the code: short strings without "PUB_" panic (C33_violated) and the legacy form of keys with first byte 30 or more does not round-trip (C33_violated_legacy). Proved: the round-trip for the PUB_ form, the exact accepted language, the exact set of panicking strings, and that the legacy form round-trips exactly when its Base58 text has 50 characters (first byte 1..28 suffices, so compressed points do).'),
 'C34': ('partial', 'Round-trip proved; not free of panics (C34_violated), C34_cases_partial gives the exact accepted language and panicking strings.'),
 'C35': ('proved', 'WebAuthn length prefixes below 2^35, the limit of the 5-byte buffer; the decoder produces well-formed data only.'),
 'C36': ('proved', 'Also the exact range: everything else panics in WriteVaruint (C03).'),
 'C37': ('partial', 'False for Action (C37_violated: authorizations are appended); C37_action_partial gives the exact outcome on every stream. Proved for every other chain type. For the reflection codec C37_reflect_partial and C37_decodeVariant_partial give it for every supported type and any two previous contents, up to nil against empty slices; missing: destinations with an Action that has authorizations (false, C37_reflect_violated).'),
 'C38': ('proved', 'Injective, prefix-free, and equal to the documented layout.'),
 'C39': ('proved', 'SHA-256 is a parameter. Panics exactly outside the range (C39_panics_iff).'),
 'C66': ('partial', 'False for PermissionLevel, Action, Transaction (C66_violated: errors of the first reads are dropped). Proved for the reading methods, all other chain types, and reflection and ABI types without extensions built from them (C09_reflect_strict, C09_abi_strict).'),
 'C40': ('partial', 'False of the code for some types (C40_violated): pointers to pointers of most basic types encode but do not decode, nil pointers and declared integer types do not encode. Proved for every type and value meeting Encodable, Decodable and Wf (Spec/Reflect.lean), into any clean destination, with the wire form specified.'),
 'C41': ('proved', 'Every iteration order of the map; duplicate keys on the wire: the last entry wins.'),
 'C42': ('partial', 'Encoding: same bytes or same panic for every transaction. Decoding agrees in both directions except where reflection panics (C42_violated: authorization counts of 2^63 and more are read as 0 by UnmarshalABI).'),
 'C43': ('partial', 'False for extension fields at the end of a struct: they become zero, but Decode returns io.EOF (C43_extension_last_violated, for every type with content). Proved: an absent extension is zero and the fields behind it are decoded as if it were not there. Field by field: sequence, optional, extension and variant fields for every field type and every remaining struct; DecodeVariant leaves exactly the selected member.'),
 'C44': ('partial', 'False: the negation is proved for every variant with two or more alternatives (C44_violated), and with one alternative the index is missing (C44_violated_single). Nothing remains to be proved of the positive claim.'),
 'C61': ('partial', 'Precedence, errors, declining (also without the functions of pkg/chain) and recursion into slices and struct fields proved; C61_violated: the target of a pointer to a chain type, of a pointer to a pointer, and the parts of chain types are not shown to the function.'),
 'C67': ('partial', 'False for strings and structs, where the result is that of an absent field (C67_violated); proved for extension fields of fixed size and for all errors other than io.EOF.'),
 'C46': ('partial', 'Termination, the exact set of types resolved and their description are proved for every ABI; short names panic (C46_violated), C46_panics_iff is the exact condition.'),
 'C53': ('proved', ''),
 'C47': ('partial', 'False for bytes, eosio::name and Go uint64 values (C47_violated). Proved for all other builtin types and everything built from them by structs, inheritance, variants, aliases, arrays and optionals: the wire form, the round-trip, injectivity. Counts are below 2^28 (C03).'),
 'C48': ('proved', 'For the field list of each resolved type, and for the bytes written (C48_encode); decoding in that order is part of C47_exact, and C48_decode covers structs that repeat a field name, where the last field counts.'),
 'C50': ('partial', 'False (C50_violated, for every ABI and every struct without fields); as a base such a struct is no obstacle.'),
 'C51': ('partial', 'False for every byte string (C51_violated); the positive part needs the caller to add the length.'),
 'C52': ('proved', 'C52_sound: success implies that value and bytes are in the declared relation at every position; C52_complete is the converse for well-formed keys and signatures, C52_iff is exact for all. Lengths are below 2^63, as in Go.'),
 'C49': ('partial', 'False: cyclic definitions make Decode (and, for aliases, Encode) recurse forever (C49_violated, C49_encode_violated). Proved: termination on every input if every type is grounded (no way back to a type without consuming input), and that a type that is not grounded diverges already on the empty input (C49_diverges).'),
 'C54': ('partial', 'Proved: absent trailing extensions decode without error (C54_absent, C54_trailing), other types at the end of the input are an error (C54_required), suffixes without both ? and $ are understood, truncation inside types read in one piece and inside arrays of builtin types is an error. False: absent builtin extensions are zero, not absent (C54_zero_violated); truncation between two reads counts as absence (C54_truncated_violated); T?$ and T?[] are not understood (C54_suffix_violated, C54_inner_violated); T$? is never absent (C54_optional_violated).'),
 'C45': ('partial', 'False: impossible lengths panic in make (C45_violated; the lengths that panic are given exactly for strings, slices, transactions and ABI arrays by C45_string_iff, C45_slice_iff, C45_transaction_iff and C45_array_iff, with sizes of Go types from a separate specification), variant indexes of 2^63 and more panic (C45_variant_violated), and some Go types panic on every input (C45_types_violated). Proved: reading methods, UnmarshalABI of all chain types, Decode into steady types and Abi.Decode panic only on input with a run of five bytes of 128 or more, and Decode into types without lengths on the wire never panics. Running out of memory below the limit of make is not modelled.'),
 'C55': ('partial', 'False for ABIs without the variants section: everything is read, but Decode returns io.EOF (C55_no_variants_violated, for every ABI). The round trip is proved for every ABI whose lengths are below 2^28 (C03), with the binary form given by a separate layout; nil slices count as empty, nil pointers among the extensions cannot be encoded.'),
 'C56': ('proved', 'For every value of the three types; rounding for every instant within 142 million years of 1970, as a count modulo 2^32, and as the nearest value for the instants that can be represented (C56_before_2000 shows that the others wrap around).'),
 'C57': ('partial', 'Proved in full for TimePointSec and BlockTimestamp, together with the calendar for all days and the exact text accepted. TimePoint text is read back, to the millisecond, for the years 0 to 9999; outside it is false (C57_timePoint_violated).'),
 'C60': ('partial', 'False for many fields the generator accepts: the violated theorems give structs whose generated code does not compile (arrays without slices, slices of slices of bytes, slices of structs of the same package, pointers to lists, two pointers, maps), writes other bytes ([][]byte), panics on decoding (pointers to types with methods), leaves old content (absent optionals) or ignores tags. Proved for every struct of the remaining fields, nested to any depth: same bytes and same values. The compile theorems (C60_marshal_compiles_iff, C60_unmarshal_compiles_iff) are for all structs and exact.'),
 'C68': ('partial', 'False for signatures passed by value (C68_signature_violated: MarshalText has a pointer receiver, so they are written as objects that cannot be read). Proved for every other value whose texts can be read back (C15, C17, C22, C33, C34, C57 give the exceptions), UTF-8 strings and no pointers to nil; for types without omitempty and Float128 over any previous value. encoding/json is modelled, see DESIGN.md.'),
 'C69': ('proved', 'No hypotheses; encoding/json is modelled. The read theorems start from the members of the JSON object.'),
 'C70': ('partial', 'Strings have to be UTF-8; otherwise json replaces bytes (C70_invalid_utf8_violated; C70_string says what any string comes back as). Over an Abi in use, members left out keep the old content (C70_reuse_violated).'),
 'C71': ('proved', 'For types nested no deeper than the 10000 levels json reads. MarshalText may panic (C17, C33), which is no output.'),
 'C72': ('proved', 'Names are compared as json does, without regard to letter case; the order matters only for members of the same name or if there is an error.'),
 'C73': ('proved', 'As documents; the printer is JVal.print and C71 shows that its output is read as that document.'),
 'C74': ('proved', 'For types and documents without names that differ in letter case only; what JTy.Reads says of the text types is their UnmarshalText, specified by C11-C35 and C57. The syntax of texts is that of RFC 8259 (C74_syntax, an equivalence); literals with lone surrogates or bytes that are not UTF-8 are read as well, with U+FFFD in their place (C74_literal, an equivalence).'),
 'C75': ('partial', 'For symbols of at most 18 decimals and values other than -2^63 (C75_violated_min, C75_decimals_violated). strconv.ParseFloat is taken to return the nearest float64, ties to even.'),
 'C76': ('partial', 'Data behind the value is ignored (C76_trailing_violated) and structs without fields are refused (C76_empty_violated). Given enough stack.'),
 'C77': ('partial', 'Decode ends if every mention of a type is behind a byte of input, and the recursion is then at most twice as deep as the input is long; otherwise it may never end (C77_unguarded_violated), and the depth is not bounded independently of the input (C77_depth_linear): a hostile input exhausts the stack. Recursion that does not pass through a struct (type L []L) is not modelled; for Encode on cyclic pointers see C110.'),
 'C78': ('partial', 'Infinite floats and NaN are refused and assets with 64 decimals or more panic (C78_nan_violated, C78_asset_violated, C78_writes_iff); signatures are written as structs (C78_signature_violated). Only null, booleans, finite float64, UTF-8 strings, lists and maps of them come back (C78_back_partial); Abi.Encode refuses every document for the other builtin types (C78_back_violated). Floats are written with the fewest digits that give the same float back; numbers of at most 9000 characters are read as the nearest float64, or refused if beyond the largest (C78_number, C78_reads): strconv ignores digits of an exponent from 10000 on.'),
 'C79': ('proved', 'The hash functions of the standard library are modelled after their portable code and proved equal to a specification written from FIPS 180-4. That the Go distribution computes what that code says (it may use assembly) is part of the trusted base.'),
 'C80': ('proved', 'Destinations of Action must not hold authorizations (Clean): UnmarshalABI appends to them, see C37.'),
 'C81': ('proved', 'Types without extension fields and with map keys that hold no pointers or floats (Strait). What extension fields accept depends on how the stream ends, see C43 and C67.'),
 'C82': ('proved', 'NoShort: resolving panics otherwise (C46). Extensions are excluded (NoExtension): what they accept depends on where the stream ends, see C54. Recursion is counted by a depth; "given enough stack" is from some depth on.'),
 'C83': ('partial', 'False for nil (C83_violated: asking the zero Value for its type panics) and for nil pointers to bool, string, numbers (C83_nil_basic_violated: always, after reading), []byte and the types of package chain (C83_nil_chain_violated). Proved for every other argument; a nil pointer never leads to success, and an error returned for one is the error of the read (C83_nil_fails).'),
 'C84': ('partial', 'False for every struct that embeds exactly one type of package chain: its MarshalABI and UnmarshalABI become those of the struct, so the other fields are neither written nor read (C84_encode_violated, C84_encode_value_violated, C84_decode_violated); Encode of the struct and of a pointer to it may differ (C84_asset_violated). At any depth, values that differ only in fields so lost are written alike (C84_nested_violated). Proved for all other structs and types of structs. Methods of embedded types declared by users: see C114.'),
 'C85': ('proved', 'For types written out in full (Whole); C85_error, C85_panics, C85_iff and C85_chain also assume lengths below 2^63, as in Go. Maps: the first obstacle in the order in which the entries are visited.'),
 'C86': ('proved', 'Types that can be decoded (Decodable: exported fields, no variant tags) without extensions (Strait), into a variable with its zero value. C86_panics_reached: a decoded value for which Encode panics. C86_blank_differs: outside the quantifier, a blank field with the tag optional is written but not read.'),
 'C87': ('proved', 'Names of fields in ASCII, as all of package chain are.'),
 'C88': ('partial', 'That Encode writes something is false if an alias for an optional type is mentioned (C88_alias_violated: nil is decoded, and refused), for bytes (C51_violated), for two fields of one name (C88_duplicate_violated) and beyond the bounds of C03. Proved: outside these cases it does (C88_writes), and whatever it writes is read as the same value and is no longer (C88_normalises).'),
 'C89': ('proved', 'Both behaviours of binary.ReadUvarint at the end of the input are covered (goLegacyUvarint). C89_half_violated: an extension cut between two reads is not reported, against C54; an asset comes out with its amount and no symbol.'),
 'C90': ('proved', 'With a writer that does not fail; for one that does see C10. Values are trees: a map or slice that contains itself is not represented.'),
 'C91': ('proved', 'Of text/template the actions these templates use; the Go lexer is a specification of its own (Spec/GoSource), identifiers are ASCII. The text is compared as tokens: what white space and line ends mean to the lexer (automatic semicolons) is part of it. Types are texts as reflect prints them.'),
 'C92': ('proved', 'Which values and inputs panic is not part of this property (C03, C10, C60). Structs with generated code nest to a finite depth; recursive ones are left out.'),
 'C93': ('proved', 'Into a zero value; C37 relates it to other destinations. What a destination holds after io.EOF is stated where all fields are in place, not after a stop inside a field. C93_silent_violated: an extension cut between its elements is dropped without an error if a field that takes no bytes follows.'),
 'C94': ('proved', 'Into a zero value. The message of a panic and what the destination holds after an error are not part of the statement. In the end of a number, versions of Go before 1.16 keep io.EOF: both are covered by goLegacyUvarint.'),
 'C95': ('proved', 'The stack is a number of nested calls (fuel); a result at one depth is the result at every larger one. The message of a panic and what the destination holds after an error other than io.EOF are not part of the statement.'),
 'C96': ('partial', 'C96_success_partial: into a zero value, without extension fields, elements take at least a byte. C96_abi_partial: nothing is missing at the end, or no extensions. The rest is false, see C96_loop_violated (no bytes for an element), C96_abi_violated (missing extensions), C96_slice_violated and C96_buffer_violated (allocation before reading). C96_slice_length: a slice has the announced number of elements even after an error.'),
 'C97': ('proved', 'Lengths of arrays in values (checksums, Float128, Go arrays) are those of the value; Real and Whole as in C85. C97_decode: into a zero value, types without extension fields.'),
 'C98': ('partial', 'Encode and Abi.Encode: not where "bytes" occurs, where the claim is false (C98_bytes_violated); reading is proved with bytes. Optional fields that are no pointers and variants are not related by the specification: C98_optional_violated and C98_variant_violated show why. No extension types for C98_decode and C98_action. Into a zero value for C98_decode.'),
 'C99': ('proved', 'Previous content: Held, as in C37. C99_undone_violated: the destination need not be as it was.'),
 'C100': ('proved', 'Simplified: slices are whole arrays, no pointers into structs or arrays, map keys without pointers, the slices inside chain types are values. C100_loop_violated: a copy of the first result changes when the second is decoded. C100_alias_violated: why nothing may be reached in two ways.'),
 'C101': ('proved', 'A write of no bytes to a full writer succeeds. C101_reflect_violated and C101_abi_violated: nil although bytes are missing.'),
 'C102': ('proved', 'Each value is decoded into a fresh variable; for one variable used again see C37 and C100. C102_eof_violated: io.EOF inside a value. C102_endless_violated: values without bytes.'),
 'C103': ('proved', 'C103_variant_encode and C103_variant_decode are about what succeeds (or ends with io.EOF): an error about an unknown alternative goes away when the alternative is added. C103_shadow_violated: a new alias named uint8. C103_front_violated: a new first alternative.'),
 'C104': ('proved', 'Simplified as C100. C104_copy: types and values that Encode and Decode support (C40). C104_sharing_violated: one pointer in two fields becomes two.'),
 'C105': ('proved', 'The old fields do not mention the struct itself. C105_leave_out_violated: a map without the extension is refused by Encode. C105_inside_violated: the struct in an array, followed by a text.'),
 'C106': ('proved', 'Every value is decoded to a new value, as Decode always does. C106_eof_violated: io.EOF inside a value. C106_endless_violated: a type that is read from no input.'),
 'C107': ('proved', 'C107_old_data_violated: data from before an extension field was added are decoded with io.EOF instead of nil (finding 42), for every struct and every type of the field.'),
 'C108': ('partial', 'Complete for TimePointSec and BlockTimestamp. For TimePoint false outside of the years 0 to 9999 (C108_timePoint_violated), and the text has no microseconds (C57_microseconds_lost); proved to the millisecond inside.'),
 'C109': ('partial', 'False for assets of the amount -2^63 (C109_asset_violated, from C17_violated_min); proved for all others and everything else.'),
 'C110': ('partial', 'Places of declared types must be behind a pointer, slice or map if the field is optional (`Indirect`). The round trip has the limits of C77_roundtrip_partial. On a cycle: never a nil error (C110_cycle), no return at all if nothing in memory is an error (C110_endless); that a writer of bounded room is filled is proved for rings of list items (C110_ring).'),
 'C111': ('proved', 'C111_above_violated: the number 0x80 0x00 is the first alternative for Abi.Decode and refused by DecodeVariant, so the restriction to bytes below 128 is needed.'),
 'C112': ('proved', 'Both directions in which it holds; C112_converse_violated shows that the third does not (finding 51 has the same cause).'),
 'C113': ('proved', 'The statement allows for panics of make; C113_panic_violated shows that these do differ (finding 63).'),
 'C114': ('proved', 'C114_violated and C114_nil_violated show what the statement says of methods on the pointer and of nil pointers: code that expects MarshalABI to be called on every value is wrong.'),
 'C115': ('proved', 'What Decode leaves in the destination after the error is not stated here. C115_eof_violated shows the exception for io.EOF.'),
 'C116': ('proved', 'C116_violated and C116_self_violated show what the skipped byte means: methods that keep a format are not enough for DecodeVariant, and UnmarshalABI cannot be written with DecodeVariant. The depth of calls in C116_self_violated is bounded by a number; the result holds for every bound above the length of the input.'),
 'C117': ('proved', 'Destinations that hold something already are covered for DecodeVariant and, for data in the form of Encode, by C114.'),
 'C118': ('proved', 'Values have fewer than 2^63 elements in each slice, string and map, as in Go; types are not recursive. How many bytes were written before an error is stated in C115.'),
 'C119': ('proved', 'Into new variables. When Encode panics follows from C118: a length or a number above the bound of the varuint writer, or a method. C119_pointer_differs shows that the receiver matters (finding in C114_violated).'),
 'C120': ('proved', 'Into new variables; the embedded types are those of package chain. That the other fields are not read is the defect of C84 (partial); this is the exact set of what is read instead.'),
}
