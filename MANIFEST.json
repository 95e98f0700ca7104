{
 "claims": [
  {
   "property": "C01",
   "status": "proved",
   "theorems": [
    "Verif.C01_uint8",
    "Verif.C01_uint16",
    "Verif.C01_uint32",
    "Verif.C01_uint64",
    "Verif.C01_int8",
    "Verif.C01_int16",
    "Verif.C01_int32",
    "Verif.C01_int64",
    "Verif.C01_float32",
    "Verif.C01_float64",
    "Verif.C01_bool"
   ],
   "note": ""
  },
  {
   "property": "C02",
   "status": "proved",
   "theorems": [
    "Verif.C02_varuint"
   ],
   "note": ""
  },
  {
   "property": "C03",
   "status": "partial",
   "theorems": [
    "Verif.C03_varuint_iff_partial",
    "Verif.C03_varint_iff_partial",
    "Verif.C03_violated"
   ],
   "note": "The claim is false of the code: WriteVaruint/WriteVarint use a 4-byte scratch buffer. Proved: the exact accepted range (v < 2^28, -2^27 <= v < 2^27), panics exactly outside it, and the negation of the full claim (C03_violated)."
  },
  {
   "property": "C04",
   "status": "proved",
   "theorems": [
    "Verif.C04_varint"
   ],
   "note": ""
  },
  {
   "property": "C05",
   "status": "proved",
   "theorems": [
    "Verif.C05_readVaruint_total",
    "Verif.C05_accepts_noncanonical"
   ],
   "note": "Complete case description for every stream."
  },
  {
   "property": "C06",
   "status": "proved",
   "theorems": [
    "Verif.C06_bytes",
    "Verif.C06_bytes_strict",
    "Verif.C06_string",
    "Verif.C06_string_panics",
    "Verif.C06_slice"
   ],
   "note": "WriteString/ReadString, Bytes, Blob and []byte through the reflection codec; lengths below 2^28 (see C03)."
  },
  {
   "property": "C07",
   "status": "proved",
   "theorems": [
    "Verif.C07_chunking",
    "Verif.C07_chunking_list"
   ],
   "note": "One theorem over all decode programs of the model."
  },
  {
   "property": "C08",
   "status": "proved",
   "theorems": [
    "Verif.C08_append",
    "Verif.C08_locality"
   ],
   "note": "First half: every round-trip theorem is stated with arbitrary following data. Second half: C08_append, one theorem over all decode programs of the model (reading methods, UnmarshalABI, reflection, dynamic ABI)."
  },
  {
   "property": "C09",
   "status": "proved",
   "theorems": [
    "Verif.C09_chain_strict",
    "Verif.C09_primitives",
    "Verif.C09_chain",
    "Verif.C09_reflect_cut",
    "Verif.C09_abi_cut",
    "Verif.C09_reflect_strict",
    "Verif.C09_reflect",
    "Verif.C09_abi_strict",
    "Verif.C09_abi",
    "Verif.C09_truncation",
    "Verif.C09_faults",
    "Verif.C09_primitives_strict",
    "Verif.C09_transactions_strict",
    "Verif.C09_transaction",
    "Verif.C09_action"
   ],
   "note": "Reading methods, every UnmarshalABI of pkg/chain, the reflection codec and the dynamic ABI codec for types without extensions."
  },
  {
   "property": "C10",
   "status": "partial",
   "theorems": [
    "Verif.C10_chain_strict",
    "Verif.C10_sticky_partial",
    "Verif.C10_transactions_sticky_partial",
    "Verif.C10_violated",
    "Verif.C10_primitives",
    "Verif.C10_chain_partial",
    "Verif.C10_reflect_faults_partial",
    "Verif.C10_abi_faults_partial",
    "Verif.C10_transactions_lasting_partial",
    "Verif.C10_reflect_partial",
    "Verif.C10_optional_violated",
    "Verif.C10_abi_partial",
    "Verif.C10_abi_violated",
    "Verif.C10_write_errors",
    "Verif.C10_primitives_strict"
   ],
   "note": "False for PermissionLevel, Action and Transaction with transiently failing writers (C10_violated); proved for them if the writer goes on failing, and without condition for the writing methods and all other chain types. Reflection and dynamic ABI: false wherever an optional is written (C10_optional_violated, C10_abi_violated: the error of the presence flag is dropped), proved for all types without optionals."
  },
  {
   "property": "C11",
   "status": "proved",
   "theorems": [
    "Verif.C11_name_roundtrip",
    "Verif.C11_name_text_roundtrip"
   ],
   "note": ""
  },
  {
   "property": "C12",
   "status": "proved",
   "theorems": [
    "Verif.C12_string_canonical",
    "Verif.C12_canonical_roundtrip",
    "Verif.C12_bijection"
   ],
   "note": ""
  },
  {
   "property": "C13",
   "status": "proved",
   "theorems": [
    "Verif.C13_order"
   ],
   "note": ""
  },
  {
   "property": "C14",
   "status": "proved",
   "theorems": [
    "Verif.C14_newName_value",
    "Verif.C14_newName_prefix",
    "Verif.C14_violated_4GiB",
    "Verif.C14_name_binary"
   ],
   "note": "For strings below 4 GiB; C14_violated_4GiB shows why the bound is needed (uint32(len(s)) wraps)."
  },
  {
   "property": "C15",
   "status": "proved",
   "theorems": [
    "Verif.C15_symbol_text",
    "Verif.C15_symbol_unmarshalText",
    "Verif.C15_symbol_string",
    "Verif.C15_symbolCode_text"
   ],
   "note": ""
  },
  {
   "property": "C16",
   "status": "proved",
   "theorems": [
    "Verif.C16_newSymbol_iff",
    "Verif.C16_accessors",
    "Verif.C16_injective"
   ],
   "note": ""
  },
  {
   "property": "C17",
   "status": "partial",
   "theorems": [
    "Verif.C17_violated_min",
    "Verif.C17_asset_text_partial",
    "Verif.C17_asset_unmarshalText_partial"
   ],
   "note": "Proved for every value except -2^63, where the claim is false (C17_violated_min: \"--...\" is printed and not accepted back)."
  },
  {
   "property": "C18",
   "status": "proved",
   "theorems": [
    "Verif.C18_newAsset_iff",
    "Verif.C18_newAsset_error",
    "Verif.C18_A",
    "Verif.C18_newAsset_accepts"
   ],
   "note": "Exact accepted language with the resulting value, and errors otherwise."
  },
  {
   "property": "C19",
   "status": "partial",
   "theorems": [
    "Verif.C19_string_partial",
    "Verif.C19_panics_iff",
    "Verif.C19_wide",
    "Verif.C19_violated"
   ],
   "note": "False of the code: C19_violated (64 or more decimals decoded from the wire: division by zero; C19_panics_iff is the exact set) and C17_violated_min. Proved: correct text for up to 18 decimals and every value but -2^63; C19_wide says for 19 to 63 decimals exactly which texts are right."
  },
  {
   "property": "C20",
   "status": "proved",
   "theorems": [
    "Verif.C20_asset_binary",
    "Verif.C20_extendedAsset_binary",
    "Verif.C20_strict"
   ],
   "note": ""
  },
  {
   "property": "C21",
   "status": "proved",
   "theorems": [
    "Verif.C21_bigInt",
    "Verif.C21_newUint128",
    "Verif.C21_newUint128_value",
    "Verif.C21_newUint128_panics",
    "Verif.C21_fromString_iff",
    "Verif.C21_fromString_error",
    "Verif.C21_string_roundtrip"
   ],
   "note": ""
  },
  {
   "property": "C22",
   "status": "partial",
   "theorems": [
    "Verif.C22_bigInt",
    "Verif.C22_newInt128_partial",
    "Verif.C22_string_roundtrip_partial",
    "Verif.C22_violated",
    "Verif.C22_wraps",
    "Verif.C22_panics",
    "Verif.C22_newInt128_all",
    "Verif.C22_fromString_iff",
    "Verif.C22_fromString_error"
   ],
   "note": "False at -2^127 (C22_violated: NewInt128 builds another number). Proved for every other value; C22_newInt128_all and C22_fromString_iff describe what happens to every number and text."
  },
  {
   "property": "C23",
   "status": "proved",
   "theorems": [
    "Verif.C23_marshal",
    "Verif.C23_uint64_roundtrip",
    "Verif.C23_accepts",
    "Verif.C23_uint64_exact",
    "Verif.C23_unmarshal_iff",
    "Verif.C23_blockNum_roundtrip",
    "Verif.C23_blockNum_rejects"
   ],
   "note": "C23_unmarshal_iff is the exact accepted language of both types."
  },
  {
   "property": "C24",
   "status": "proved",
   "theorems": [
    "Verif.C24_float128_any_length",
    "Verif.C24_u128_binary",
    "Verif.C24_float128_binary",
    "Verif.C24_float128_text",
    "Verif.C24_strict",
    "Verif.C24_uint64_blockNum_binary"
   ],
   "note": "C24_float128_any_length: the text of a Float128 may have any length; missing digits are not an error and leave the old bytes."
  },
  {
   "property": "C25",
   "status": "partial",
   "theorems": [
    "Verif.C25_roundtrip",
    "Verif.C25_not_hex_partial",
    "Verif.C25_violated"
   ],
   "note": "Round-trip and acceptance of every hex text proved; the error on other text is never reported (C25_violated), the destination is only left unchanged (C25_not_hex_partial)."
  },
  {
   "property": "C26",
   "status": "partial",
   "theorems": [
    "Verif.C26_roundtrip",
    "Verif.C26_not_hex_partial",
    "Verif.C26_hex_exact_partial",
    "Verif.C26_violated"
   ],
   "note": "False of the code: short hex text panics and long hex text is truncated silently (C26_violated). Proved: round-trip and the exact behaviour on every text."
  },
  {
   "property": "C27",
   "status": "proved",
   "theorems": [
    "Verif.C27_marshal",
    "Verif.C27_roundtrip",
    "Verif.C27_accepts_iff"
   ],
   "note": "Also the exact accepted language."
  },
  {
   "property": "C28",
   "status": "partial",
   "theorems": [
    "Verif.C28_result",
    "Verif.C28_text_unchanged_partial",
    "Verif.C28_exact",
    "Verif.C28_violated",
    "Verif.C28_json_violated"
   ],
   "note": "False for Blob (C28_violated: append writes into spare capacity behind the text; C28_json_violated: inside json.Unmarshal that is the caller's document). Proved: what is preserved, and exactly which bytes change and when (C28_exact)."
  },
  {
   "property": "C29",
   "status": "proved",
   "theorems": [
    "Verif.C29_roundtrip"
   ],
   "note": ""
  },
  {
   "property": "C30",
   "status": "partial",
   "theorems": [
    "Verif.C30_roundtrip",
    "Verif.C30_violated",
    "Verif.C30_other_partial",
    "Verif.C30_cases"
   ],
   "note": "False of the code for non-alphabet strings (C30_violated: runes above 255 index past the table and panic). Proved: the round-trip on alphabet strings and the exact outcome (empty or panic) for every other string."
  },
  {
   "property": "C31",
   "status": "proved",
   "theorems": [
    "Verif.C31_positional",
    "Verif.C31_unique",
    "Verif.C31_decode"
   ],
   "note": "uint64/int64 arithmetic is modelled with wrapping integers, so absence of overflow is part of the theorems."
  },
  {
   "property": "C32",
   "status": "proved",
   "theorems": [
    "Verif.C32_roundtrip",
    "Verif.C32_roundtrip_eosio",
    "Verif.C32_decode",
    "Verif.C32_decode_eosio"
   ],
   "note": "SHA-256 is a parameter (any function with 32-byte results); RIPEMD-160 is the published function of C59. Strings on which Decode panics (C30) panic here as well."
  },
  {
   "property": "C33",
   "status": "partial",
   "theorems": [
    "Verif.C33_text",
    "Verif.C33_parse",
    "Verif.C33_roundtrip",
    "Verif.C33_accepts",
    "Verif.C33_panics_partial",
    "Verif.C33_legacy_text",
    "Verif.C33_legacy_iff_partial",
    "Verif.C33_legacy_roundtrip_partial",
    "Verif.C33_violated_legacy",
    "Verif.C33_violated",
    "Verif.C33_unmarshalText"
   ],
   "note": "False of the code: short strings without \"PUB_\" panic (C33_violated) and the legacy form of keys with first byte 30 or more does not round-trip (C33_violated_legacy). Proved: the round-trip for the PUB_ form, the exact accepted language, the exact set of panicking strings, and that the legacy form round-trips exactly when its Base58 text has 50 characters (first byte 1..28 suffices, so compressed points do)."
  },
  {
   "property": "C34",
   "status": "partial",
   "theorems": [
    "Verif.C34_text",
    "Verif.C34_parse",
    "Verif.C34_roundtrip",
    "Verif.C34_cases_partial",
    "Verif.C34_ascii_partial",
    "Verif.C34_violated"
   ],
   "note": "Round-trip proved; not free of panics (C34_violated), C34_cases_partial gives the exact accepted language and panicking strings."
  },
  {
   "property": "C35",
   "status": "proved",
   "theorems": [
    "Verif.C35_key",
    "Verif.C35_key_wf",
    "Verif.C35_key_unknown",
    "Verif.C35_signature",
    "Verif.C35_signature_wf",
    "Verif.C35_signature_unknown",
    "Verif.C35_strict"
   ],
   "note": "WebAuthn length prefixes below 2^35, the limit of the 5-byte buffer; the decoder produces well-formed data only."
  },
  {
   "property": "C36",
   "status": "proved",
   "theorems": [
    "Verif.C36_action",
    "Verif.C36_permissionLevel",
    "Verif.C36_header",
    "Verif.C36_extension",
    "Verif.C36_transaction",
    "Verif.C36_action_range",
    "Verif.C36_header_range",
    "Verif.C36_transaction_range"
   ],
   "note": "Also the exact range: everything else panics in WriteVaruint (C03)."
  },
  {
   "property": "C37",
   "status": "partial",
   "theorems": [
    "Verif.C37_name",
    "Verif.C37_symbol",
    "Verif.C37_asset",
    "Verif.C37_extendedAsset",
    "Verif.C37_uint128",
    "Verif.C37_float128",
    "Verif.C37_uint64",
    "Verif.C37_blockNum",
    "Verif.C37_timePoint",
    "Verif.C37_timePointSec",
    "Verif.C37_bytes",
    "Verif.C37_checksum",
    "Verif.C37_publicKey",
    "Verif.C37_signature",
    "Verif.C37_permissionLevel",
    "Verif.C37_action_partial",
    "Verif.C37_action_empty_partial",
    "Verif.C37_violated",
    "Verif.C37_header",
    "Verif.C37_extension",
    "Verif.C37_transaction",
    "Verif.C37_reflect_partial",
    "Verif.C37_reflect_zero_partial",
    "Verif.C37_decodeVariant_partial",
    "Verif.C37_reflect_violated"
   ],
   "note": "False for Action (C37_violated: authorizations are appended); C37_action_partial gives the exact outcome on every stream. Proved for every other chain type. For the reflection codec C37_reflect_partial and C37_decodeVariant_partial give it for every supported type and any two previous contents, up to nil against empty slices; missing: destinations with an Action that has authorizations (false, C37_reflect_violated)."
  },
  {
   "property": "C38",
   "status": "proved",
   "theorems": [
    "Verif.C38_action",
    "Verif.C38_transaction",
    "Verif.C38_layout_action",
    "Verif.C38_layout_transaction"
   ],
   "note": "Injective, prefix-free, and equal to the documented layout."
  },
  {
   "property": "C39",
   "status": "proved",
   "theorems": [
    "Verif.C39_digest",
    "Verif.C39_panics_iff",
    "Verif.C39_collision"
   ],
   "note": "SHA-256 is a parameter. Panics exactly outside the range (C39_panics_iff)."
  },
  {
   "property": "C40",
   "status": "partial",
   "theorems": [
    "Verif.C40_layout",
    "Verif.C40_reads",
    "Verif.C40_roundtrip_partial",
    "Verif.C40_exact",
    "Verif.C40_pointer",
    "Verif.C40_violated"
   ],
   "note": "False of the code for some types (C40_violated): pointers to pointers of most basic types encode but do not decode, nil pointers and declared integer types do not encode. Proved for every type and value meeting Encodable, Decodable and Wf (Spec/Reflect.lean), into any clean destination, with the wire form specified."
  },
  {
   "property": "C41",
   "status": "proved",
   "theorems": [
    "Verif.C41_order",
    "Verif.C41_duplicates"
   ],
   "note": "Every iteration order of the map; duplicate keys on the wire: the last entry wins."
  },
  {
   "property": "C42",
   "status": "partial",
   "theorems": [
    "Verif.C42_encode",
    "Verif.C42_encode_action",
    "Verif.C42_decode_partial",
    "Verif.C42_decode_back_partial",
    "Verif.C42_violated"
   ],
   "note": "Encoding: same bytes or same panic for every transaction. Decoding agrees in both directions except where reflection panics (C42_violated: authorization counts of 2^63 and more are read as 0 by UnmarshalABI)."
  },
  {
   "property": "C43",
   "status": "partial",
   "theorems": [
    "Verif.C43_sequence",
    "Verif.C43_sequence_error",
    "Verif.C43_optional_absent",
    "Verif.C43_optional_present",
    "Verif.C43_optional_error",
    "Verif.C43_optional_end",
    "Verif.C43_extension_present",
    "Verif.C43_extension_end_partial",
    "Verif.C43_extension_last_violated",
    "Verif.C43_extension_content",
    "Verif.C43_variant_selected",
    "Verif.C43_variant_range",
    "Verif.C43_variant_decodes",
    "Verif.C43_variant_field",
    "Verif.C43_variant_pointer"
   ],
   "note": "False for extension fields at the end of a struct: they become zero, but Decode returns io.EOF (C43_extension_last_violated, for every type with content). Proved: an absent extension is zero and the fields behind it are decoded as if it were not there. Field by field: sequence, optional, extension and variant fields for every field type and every remaining struct; DecodeVariant leaves exactly the selected member."
  },
  {
   "property": "C44",
   "status": "partial",
   "theorems": [
    "Verif.C44_violated",
    "Verif.C44_violated_field",
    "Verif.C44_violated_single"
   ],
   "note": "False: the negation is proved for every variant with two or more alternatives (C44_violated), and with one alternative the index is missing (C44_violated_single). Nothing remains to be proved of the positive claim."
  },
  {
   "property": "C45",
   "status": "partial",
   "theorems": [
    "Verif.C45_layout",
    "Verif.C45_slice_iff",
    "Verif.C45_transaction_iff",
    "Verif.C45_array_iff",
    "Verif.C45_methods_partial",
    "Verif.C45_reflect_partial",
    "Verif.C45_sized",
    "Verif.C45_abi_partial",
    "Verif.C45_string_iff",
    "Verif.C45_violated",
    "Verif.C45_types_violated",
    "Verif.C45_variant_violated"
   ],
   "note": "False: impossible lengths panic in make (C45_violated; the lengths that panic are given exactly for strings, slices, transactions and ABI arrays by C45_string_iff, C45_slice_iff, C45_transaction_iff and C45_array_iff, with sizes of Go types from a separate specification), variant indexes of 2^63 and more panic (C45_variant_violated), and some Go types panic on every input (C45_types_violated). Proved: reading methods, UnmarshalABI of all chain types, Decode into steady types and Abi.Decode panic only on input with a run of five bytes of 128 or more, and Decode into types without lengths on the wire never panics. Running out of memory below the limit of make is not modelled."
  },
  {
   "property": "C46",
   "status": "partial",
   "theorems": [
    "Verif.C46_terminates",
    "Verif.C46_describes",
    "Verif.C46_panics_iff",
    "Verif.C46_short",
    "Verif.C46_spelling",
    "Verif.C46_unique",
    "Verif.C46_violated"
   ],
   "note": "Termination, the exact set of types resolved and their description are proved for every ABI; short names panic (C46_violated), C46_panics_iff is the exact condition."
  },
  {
   "property": "C47",
   "status": "partial",
   "theorems": [
    "Verif.C47_exact_partial",
    "Verif.C47_roundtrip_partial",
    "Verif.C47_decode",
    "Verif.C47_injective",
    "Verif.C47_violated"
   ],
   "note": "False for bytes, eosio::name and Go uint64 values (C47_violated). Proved for all other builtin types and everything built from them by structs, inheritance, variants, aliases, arrays and optionals: the wire form, the round-trip, injectivity. Counts are below 2^28 (C03)."
  },
  {
   "property": "C48",
   "status": "proved",
   "theorems": [
    "Verif.C48_fields",
    "Verif.C48_fuel",
    "Verif.C48_unique",
    "Verif.C48_encode",
    "Verif.C48_decode"
   ],
   "note": "For the field list of each resolved type, and for the bytes written (C48_encode); decoding in that order is part of C47_exact, and C48_decode covers structs that repeat a field name, where the last field counts."
  },
  {
   "property": "C49",
   "status": "partial",
   "theorems": [
    "Verif.C49_terminates_partial",
    "Verif.C49_diverges",
    "Verif.C49_violated",
    "Verif.C49_encode_violated"
   ],
   "note": "False: cyclic definitions make Decode (and, for aliases, Encode) recurse forever (C49_violated, C49_encode_violated). Proved: termination on every input if every type is grounded (no way back to a type without consuming input), and that a type that is not grounded diverges already on the empty input (C49_diverges)."
  },
  {
   "property": "C50",
   "status": "partial",
   "theorems": [
    "Verif.C50_violated",
    "Verif.C50_base_partial"
   ],
   "note": "False (C50_violated, for every ABI and every struct without fields); as a base such a struct is no obstacle."
  },
  {
   "property": "C51",
   "status": "partial",
   "theorems": [
    "Verif.C51_violated",
    "Verif.C51_prefixed_partial"
   ],
   "note": "False for every byte string (C51_violated); the positive part needs the caller to add the length."
  },
  {
   "property": "C52",
   "status": "proved",
   "theorems": [
    "Verif.C52_sound",
    "Verif.C52_complete",
    "Verif.C52_missing",
    "Verif.C52_extra",
    "Verif.C52_iff"
   ],
   "note": "C52_sound: success implies that value and bytes are in the declared relation at every position; C52_complete is the converse for well-formed keys and signatures, C52_iff is exact for all. Lengths are below 2^63, as in Go."
  },
  {
   "property": "C53",
   "status": "proved",
   "theorems": [
    "Verif.C53_first",
    "Verif.C53_nil",
    "Verif.C53_actions"
   ],
   "note": ""
  },
  {
   "property": "C54",
   "status": "partial",
   "theorems": [
    "Verif.C54_suffixes_partial",
    "Verif.C54_suffix_violated",
    "Verif.C54_inner_violated",
    "Verif.C54_absent",
    "Verif.C54_required",
    "Verif.C54_optional_violated",
    "Verif.C54_trailing",
    "Verif.C54_zero_violated",
    "Verif.C54_truncated_violated",
    "Verif.C54_truncated_partial",
    "Verif.C54_array_truncated"
   ],
   "note": "Proved: absent trailing extensions decode without error (C54_absent, C54_trailing), other types at the end of the input are an error (C54_required), suffixes without both ? and $ are understood, truncation inside types read in one piece and inside arrays of builtin types is an error. False: absent builtin extensions are zero, not absent (C54_zero_violated); truncation between two reads counts as absence (C54_truncated_violated); T?$ and T?[] are not understood (C54_suffix_violated, C54_inner_violated); T$? is never absent (C54_optional_violated)."
  },
  {
   "property": "C55",
   "status": "partial",
   "theorems": [
    "Verif.C55_roundtrip",
    "Verif.C55_decode",
    "Verif.C55_represents",
    "Verif.C55_injective",
    "Verif.C55_no_variants_violated",
    "Verif.C55_nil_extension"
   ],
   "note": "False for ABIs without the variants section: everything is read, but Decode returns io.EOF (C55_no_variants_violated, for every ABI). The round trip is proved for every ABI whose lengths are below 2^28 (C03), with the binary form given by a separate layout; nil slices count as empty, nil pointers among the extensions cannot be encoded."
  },
  {
   "property": "C56",
   "status": "proved",
   "theorems": [
    "Verif.C56_timePoint",
    "Verif.C56_timePointSec",
    "Verif.C56_blockTimestamp",
    "Verif.C56_round",
    "Verif.C56_nearest",
    "Verif.C56_before_2000"
   ],
   "note": "For every value of the three types; rounding for every instant within 142 million years of 1970, as a count modulo 2^32, and as the nearest value for the instants that can be represented (C56_before_2000 shows that the others wrap around)."
  },
  {
   "property": "C57",
   "status": "partial",
   "theorems": [
    "Verif.C57_calendar",
    "Verif.C57_date",
    "Verif.C57_sec_string",
    "Verif.C57_block_string",
    "Verif.C57_timePoint_string",
    "Verif.C57_sec_parse",
    "Verif.C57_timePoint_parse",
    "Verif.C57_block_parse",
    "Verif.C57_sec_roundtrip",
    "Verif.C57_block_roundtrip",
    "Verif.C57_timePoint_partial",
    "Verif.C57_timePoint_milli_partial",
    "Verif.C57_timePoint_violated",
    "Verif.C57_microseconds_lost",
    "Verif.C57_sec_wraps",
    "Verif.C57_unmarshalText"
   ],
   "note": "Proved in full for TimePointSec and BlockTimestamp, together with the calendar for all days and the exact text accepted. TimePoint text is read back, to the millisecond, for the years 0 to 9999; outside it is false (C57_timePoint_violated)."
  },
  {
   "property": "C58",
   "status": "proved",
   "theorems": [
    "Verif.C58_chunking",
    "Verif.C58_any_program"
   ],
   "note": "Any interleaving of Write and Sum calls."
  },
  {
   "property": "C59",
   "status": "proved",
   "theorems": [
    "Verif.C59_published",
    "Verif.C59_constants"
   ],
   "note": "For every message; the bit length is taken modulo 2^64."
  },
  {
   "property": "C60",
   "status": "partial",
   "theorems": [
    "Verif.C60_marshal_partial",
    "Verif.C60_marshal_compiles_partial",
    "Verif.C60_unmarshal_partial",
    "Verif.C60_unmarshal_compiles_partial",
    "Verif.C60_interop_partial",
    "Verif.C60_array_violated",
    "Verif.C60_bytes_violated",
    "Verif.C60_struct_slice_violated",
    "Verif.C60_ptr_list_violated",
    "Verif.C60_two_pointers_violated",
    "Verif.C60_declared_violated",
    "Verif.C60_nil_violated",
    "Verif.C60_stale_violated",
    "Verif.C60_extension_violated",
    "Verif.C60_optional_violated",
    "Verif.C60_map_violated",
    "Verif.C60_marshal_compiles_iff",
    "Verif.C60_unmarshal_compiles_iff"
   ],
   "note": "False for many fields the generator accepts: the violated theorems give structs whose generated code does not compile (arrays without slices, slices of slices of bytes, slices of structs of the same package, pointers to lists, two pointers, maps), writes other bytes ([][]byte), panics on decoding (pointers to types with methods), leaves old content (absent optionals) or ignores tags. Proved for every struct of the remaining fields, nested to any depth: same bytes and same values. The compile theorems (C60_marshal_compiles_iff, C60_unmarshal_compiles_iff) are for all structs and exact."
  },
  {
   "property": "C61",
   "status": "partial",
   "theorems": [
    "Verif.C61_encode_first",
    "Verif.C61_decode_first",
    "Verif.C61_encode_declined",
    "Verif.C61_decode_declined",
    "Verif.C61_encode_chain",
    "Verif.C61_decode_chain",
    "Verif.C61_encode_slice",
    "Verif.C61_encode_slice_error",
    "Verif.C61_encode_field",
    "Verif.C61_encode_field_error",
    "Verif.C61_decode_slice",
    "Verif.C61_decode_field",
    "Verif.C61_decode_field_error",
    "Verif.C61_violated",
    "Verif.C61_plain"
   ],
   "note": "Precedence, errors, declining (also without the functions of pkg/chain) and recursion into slices and struct fields proved; C61_violated: the target of a pointer to a chain type, of a pointer to a pointer, and the parts of chain types are not shown to the function."
  },
  {
   "property": "C62",
   "status": "proved",
   "theorems": [
    "Verif.C62_checksum_binary",
    "Verif.C62_strict"
   ],
   "note": ""
  },
  {
   "property": "C63",
   "status": "partial",
   "theorems": [
    "Verif.C63_key",
    "Verif.C63_signature",
    "Verif.C63_unchanged_partial",
    "Verif.C63_violated"
   ],
   "note": "False for Uint128, Int128 and Blob (C63_violated); proved for the other types."
  },
  {
   "property": "C64",
   "status": "proved",
   "theorems": [
    "Verif.C64_blockNum_string",
    "Verif.C64_order"
   ],
   "note": ""
  },
  {
   "property": "C65",
   "status": "proved",
   "theorems": [
    "Verif.C65_accepts_iff",
    "Verif.C65_error"
   ],
   "note": ""
  },
  {
   "property": "C66",
   "status": "partial",
   "theorems": [
    "Verif.C66_faults_partial",
    "Verif.C66_primitives",
    "Verif.C66_chain_partial",
    "Verif.C66_reflect_partial",
    "Verif.C66_abi",
    "Verif.C66_violated"
   ],
   "note": "False for PermissionLevel, Action, Transaction (C66_violated: errors of the first reads are dropped). Proved for the reading methods, all other chain types, and reflection and ABI types without extensions built from them (C09_reflect_strict, C09_abi_strict)."
  },
  {
   "property": "C67",
   "status": "partial",
   "theorems": [
    "Verif.C67_violated",
    "Verif.C67_other_errors_partial",
    "Verif.C67_fixed_partial"
   ],
   "note": "False for strings and structs, where the result is that of an absent field (C67_violated); proved for extension fields of fixed size and for all errors other than io.EOF."
  },
  {
   "property": "C68",
   "status": "partial",
   "theorems": [
    "Verif.C68_roundtrip_partial",
    "Verif.C68_any_old_partial",
    "Verif.C68_signature_violated"
   ],
   "note": "False for signatures passed by value (C68_signature_violated: MarshalText has a pointer receiver, so they are written as objects that cannot be read). Proved for every other value whose texts can be read back (C15, C17, C22, C33, C34, C57 give the exceptions), UTF-8 strings and no pointers to nil; for types without omitempty and Float128 over any previous value. encoding/json is modelled, see DESIGN.md."
  },
  {
   "property": "C69",
   "status": "proved",
   "theorems": [
    "Verif.C69_action",
    "Verif.C69_transaction",
    "Verif.C69_read_action",
    "Verif.C69_read_transaction"
   ],
   "note": "No hypotheses; encoding/json is modelled. The read theorems start from the members of the JSON object."
  },
  {
   "property": "C70",
   "status": "partial",
   "theorems": [
    "Verif.C70_abi_partial",
    "Verif.C70_invalid_utf8_violated",
    "Verif.C70_string",
    "Verif.C70_document",
    "Verif.C70_read",
    "Verif.C70_reuse_violated"
   ],
   "note": "Strings have to be UTF-8; otherwise json replaces bytes (C70_invalid_utf8_violated; C70_string says what any string comes back as). Over an Abi in use, members left out keep the old content (C70_reuse_violated)."
  },
  {
   "property": "C71",
   "status": "proved",
   "theorems": [
    "Verif.C71_valid",
    "Verif.C71_refused"
   ],
   "note": "For types nested no deeper than the 10000 levels json reads. MarshalText may panic (C17, C33), which is no output."
  },
  {
   "property": "C72",
   "status": "proved",
   "theorems": [
    "Verif.C72_unknown",
    "Verif.C72_order"
   ],
   "note": "Names are compared as json does, without regard to letter case; the order matters only for members of the same name or if there is an error."
  },
  {
   "property": "C73",
   "status": "proved",
   "theorems": [
    "Verif.C73_action",
    "Verif.C73_transaction"
   ],
   "note": "As documents; the printer is JVal.print and C71 shows that its output is read as that document."
  },
  {
   "property": "C74",
   "status": "proved",
   "theorems": [
    "Verif.C74_reads",
    "Verif.C74_permission",
    "Verif.C74_syntax",
    "Verif.C74_refused",
    "Verif.C74_string",
    "Verif.C74_literal",
    "Verif.C74_string_read"
   ],
   "note": "For types and documents without names that differ in letter case only; what JTy.Reads says of the text types is their UnmarshalText, specified by C11-C35 and C57. The syntax of texts is that of RFC 8259 (C74_syntax, an equivalence); literals with lone surrogates or bytes that are not UTF-8 are read as well, with U+FFFD in their place (C74_literal, an equivalence)."
  },
  {
   "property": "C75",
   "status": "partial",
   "theorems": [
    "Verif.C75_text",
    "Verif.C75_float_partial",
    "Verif.C75_monotone",
    "Verif.C75_exact",
    "Verif.C75_close",
    "Verif.C75_violated_min",
    "Verif.C75_decimals_violated"
   ],
   "note": "For symbols of at most 18 decimals and values other than -2^63 (C75_violated_min, C75_decimals_violated). strconv.ParseFloat is taken to return the nearest float64, ties to even."
  },
  {
   "property": "C76",
   "status": "partial",
   "theorems": [
    "Verif.C76_decode_partial",
    "Verif.C76_not_map",
    "Verif.C76_either",
    "Verif.C76_new",
    "Verif.C76_trailing_violated",
    "Verif.C76_empty_violated",
    "Verif.C76_into_partial"
   ],
   "note": "Data behind the value is ignored (C76_trailing_violated) and structs without fields are refused (C76_empty_violated). Given enough stack."
  },
  {
   "property": "C77",
   "status": "partial",
   "theorems": [
    "Verif.C77_depth_decode",
    "Verif.C77_depth_encode",
    "Verif.C77_depth_values",
    "Verif.C77_encode_ends",
    "Verif.C77_decode_ends_partial",
    "Verif.C77_roundtrip_partial",
    "Verif.C77_unguarded_violated",
    "Verif.C77_depth_linear",
    "Verif.C77_vector"
   ],
   "note": "Decode ends if every mention of a type is behind a byte of input, and the recursion is then at most twice as deep as the input is long; otherwise it may never end (C77_unguarded_violated), and the depth is not bounded independently of the input (C77_depth_linear): a hostile input exhausts the stack. Recursion that does not pass through a struct (type L []L) is not modelled; for Encode on cyclic pointers see C110."
  },
  {
   "property": "C78",
   "status": "partial",
   "theorems": [
    "Verif.C78_decoded",
    "Verif.C78_document_partial",
    "Verif.C78_exponent",
    "Verif.C78_exponent32",
    "Verif.C78_writes_iff",
    "Verif.C78_order",
    "Verif.C78_back_partial",
    "Verif.C78_number",
    "Verif.C78_reads",
    "Verif.C78_refuses",
    "Verif.C78_nan_violated",
    "Verif.C78_asset_violated",
    "Verif.C78_signature_violated",
    "Verif.C78_back_violated"
   ],
   "note": "Infinite floats and NaN are refused and assets with 64 decimals or more panic (C78_nan_violated, C78_asset_violated, C78_writes_iff); signatures are written as structs (C78_signature_violated). Only null, booleans, finite float64, UTF-8 strings, lists and maps of them come back (C78_back_partial); Abi.Encode refuses every document for the other builtin types (C78_back_violated). Floats are written with the fewest digits that give the same float back; numbers of at most 9000 characters are read as the nearest float64, or refused if beyond the largest (C78_number, C78_reads): strconv ignores digits of an exponent from 10000 on."
  },
  {
   "property": "C79",
   "status": "proved",
   "theorems": [
    "Verif.C79_sha256",
    "Verif.C79_sha512",
    "Verif.C79_unique",
    "Verif.C79_action",
    "Verif.C79_check",
    "Verif.C79_check_decode"
   ],
   "note": "The hash functions of the standard library are modelled after their portable code and proved equal to a specification written from FIPS 180-4. That the Go distribution computes what that code says (it may use assembly) is part of the trusted base."
  },
  {
   "property": "C80",
   "status": "proved",
   "theorems": [
    "Verif.C80_methods",
    "Verif.C80_chain",
    "Verif.C80_prefix_free"
   ],
   "note": "Destinations of Action must not hold authorizations (Clean): UnmarshalABI appends to them, see C37."
  },
  {
   "property": "C81",
   "status": "proved",
   "theorems": [
    "Verif.C81_decode",
    "Verif.C81_variant",
    "Verif.C81_over",
    "Verif.C81_prefix_free"
   ],
   "note": "Types without extension fields and with map keys that hold no pointers or floats (Strait). What extension fields accept depends on how the stream ends, see C43 and C67."
  },
  {
   "property": "C82",
   "status": "proved",
   "theorems": [
    "Verif.C82_decode",
    "Verif.C82_sound",
    "Verif.C82_prefix_free",
    "Verif.C82_wire"
   ],
   "note": "NoShort: resolving panics otherwise (C46). Extensions are excluded (NoExtension): what they accept depends on where the stream ends, see C54. Recursion is counted by a depth; \"given enough stack\" is from some depth on."
  },
  {
   "property": "C83",
   "status": "partial",
   "theorems": [
    "Verif.C83_value_partial",
    "Verif.C83_nil_partial",
    "Verif.C83_pointer",
    "Verif.C83_encode",
    "Verif.C83_encode_value",
    "Verif.C83_violated",
    "Verif.C83_nil_basic_violated",
    "Verif.C83_nil_fails",
    "Verif.C83_nil_chain_violated",
    "Verif.C83_nil_name"
   ],
   "note": "False for nil (C83_violated: asking the zero Value for its type panics) and for nil pointers to bool, string, numbers (C83_nil_basic_violated: always, after reading), []byte and the types of package chain (C83_nil_chain_violated). Proved for every other argument; a nil pointer never leads to success, and an error returned for one is the error of the read (C83_nil_fails)."
  },
  {
   "property": "C84",
   "status": "partial",
   "theorems": [
    "Verif.C84_fields_partial",
    "Verif.C84_encode_violated",
    "Verif.C84_encode_value_violated",
    "Verif.C84_decode_violated",
    "Verif.C84_one_partial",
    "Verif.C84_encode_nil_violated",
    "Verif.C84_decode_nil_violated",
    "Verif.C84_violated",
    "Verif.C84_asset_violated",
    "Verif.C84_nested_violated",
    "Verif.C84_nested_partial",
    "Verif.C84_nested_top"
   ],
   "note": "False for every struct that embeds exactly one type of package chain: its MarshalABI and UnmarshalABI become those of the struct, so the other fields are neither written nor read (C84_encode_violated, C84_encode_value_violated, C84_decode_violated); Encode of the struct and of a pointer to it may differ (C84_asset_violated). At any depth, values that differ only in fields so lost are written alike (C84_nested_violated). Proved for all other structs and types of structs. Methods of embedded types declared by users: see C114."
  },
  {
   "property": "C85",
   "status": "proved",
   "theorems": [
    "Verif.C85_writes",
    "Verif.C85_error",
    "Verif.C85_panics",
    "Verif.C85_iff",
    "Verif.C85_chain",
    "Verif.C85_chain_panics"
   ],
   "note": "For types written out in full (Whole); C85_error, C85_panics, C85_iff and C85_chain also assume lengths below 2^63, as in Go. Maps: the first obstacle in the order in which the entries are visited."
  },
  {
   "property": "C86",
   "status": "proved",
   "theorems": [
    "Verif.C86_writes_or_panics",
    "Verif.C86_normalises",
    "Verif.C86_chain",
    "Verif.C86_panics_reached",
    "Verif.C86_blank_differs"
   ],
   "note": "Types that can be decoded (Decodable: exported fields, no variant tags) without extensions (Strait), into a variable with its zero value. C86_panics_reached: a decoded value for which Encode panics. C86_blank_differs: outside the quantifier, a blank field with the tag optional is written but not read."
  },
  {
   "property": "C87",
   "status": "proved",
   "theorems": [
    "Verif.C87_members",
    "Verif.C87_member",
    "Verif.C87_member_other",
    "Verif.C87_member_none",
    "Verif.C87_elements",
    "Verif.C87_null",
    "Verif.C87_kind",
    "Verif.C87_pointer",
    "Verif.C87_text",
    "Verif.C87_blob",
    "Verif.C87_bytes",
    "Verif.C87_int128",
    "Verif.C87_uint64"
   ],
   "note": "Names of fields in ASCII, as all of package chain are."
  },
  {
   "property": "C88",
   "status": "partial",
   "theorems": [
    "Verif.C88_normalises",
    "Verif.C88_writes",
    "Verif.C88_alias_violated",
    "Verif.C88_duplicate_violated"
   ],
   "note": "That Encode writes something is false if an alias for an optional type is mentioned (C88_alias_violated: nil is decoded, and refused), for bytes (C51_violated), for two fields of one name (C88_duplicate_violated) and beyond the bounds of C03. Proved: outside these cases it does (C88_writes), and whatever it writes is read as the same value and is no longer (C88_normalises)."
  },
  {
   "property": "C89",
   "status": "proved",
   "theorems": [
    "Verif.C89_decode",
    "Verif.C89_stops",
    "Verif.C89_sound",
    "Verif.C89_complete",
    "Verif.C89_only_at_end",
    "Verif.C89_broken_source",
    "Verif.C89_half_violated"
   ],
   "note": "Both behaviours of binary.ReadUvarint at the end of the input are covered (goLegacyUvarint). C89_half_violated: an extension cut between two reads is not reported, against C54; an asset comes out with its amount and no symbol."
  },
  {
   "property": "C90",
   "status": "proved",
   "theorems": [
    "Verif.C90_total",
    "Verif.C90_breaks",
    "Verif.C90_iff",
    "Verif.C90_unique",
    "Verif.C90_terminates",
    "Verif.C90_errors"
   ],
   "note": "With a writer that does not fail; for one that does see C10. Values are trees: a map or slice that contains itself is not represented."
  },
  {
   "property": "C91",
   "status": "proved",
   "theorems": [
    "Verif.C91_text",
    "Verif.C91_panics",
    "Verif.C91_struct"
   ],
   "note": "Of text/template the actions these templates use; the Go lexer is a specification of its own (Spec/GoSource), identifiers are ASCII. The text is compared as tokens: what white space and line ends mean to the lexer (automatic semicolons) is part of it. Types are texts as reflect prints them."
  },
  {
   "property": "C92",
   "status": "proved",
   "theorems": [
    "Verif.C92_chain_marshal",
    "Verif.C92_chain_unmarshal",
    "Verif.C92_ref",
    "Verif.C92_write",
    "Verif.C92_read",
    "Verif.C92_marshal",
    "Verif.C92_unmarshal",
    "Verif.C92_illTyped"
   ],
   "note": "Which values and inputs panic is not part of this property (C03, C10, C60). Structs with generated code nest to a finite depth; recursive ones are left out."
  },
  {
   "property": "C93",
   "status": "proved",
   "theorems": [
    "Verif.C93_chain",
    "Verif.C93_decode",
    "Verif.C93_eof",
    "Verif.C93_lacking",
    "Verif.C93_variant",
    "Verif.C93_variant_eof",
    "Verif.C93_strait",
    "Verif.C93_silent_violated"
   ],
   "note": "Into a zero value; C37 relates it to other destinations. What a destination holds after io.EOF is stated where all fields are in place, not after a stop inside a field. C93_silent_violated: an extension cut between its elements is dropped without an error if a field that takes no bytes follows."
  },
  {
   "property": "C94",
   "status": "proved",
   "theorems": [
    "Verif.C94_chain",
    "Verif.C94_decode",
    "Verif.C94_variant",
    "Verif.C94_total",
    "Verif.C94_eof",
    "Verif.C94_errors",
    "Verif.C94_broken",
    "Verif.C94_ends",
    "Verif.C94_depth",
    "Verif.C94_depth_ends"
   ],
   "note": "Into a zero value. The message of a panic and what the destination holds after an error are not part of the statement. In the end of a number, versions of Go before 1.16 keep io.EOF: both are covered by goLegacyUvarint."
  },
  {
   "property": "C95",
   "status": "proved",
   "theorems": [
    "Verif.C95_decode",
    "Verif.C95_sound",
    "Verif.C95_endless",
    "Verif.C95_total",
    "Verif.C95_eof",
    "Verif.C95_errors",
    "Verif.C95_action",
    "Verif.C95_action_decode",
    "Verif.C95_grounded",
    "Verif.C95_cyclic"
   ],
   "note": "The stack is a number of nested calls (fuel); a result at one depth is the result at every larger one. The message of a panic and what the destination holds after an error other than io.EOF are not part of the statement."
  },
  {
   "property": "C96",
   "status": "partial",
   "theorems": [
    "Verif.C96_success_partial",
    "Verif.C96_chain",
    "Verif.C96_slice_length",
    "Verif.C96_slice_violated",
    "Verif.C96_loop_violated",
    "Verif.C96_buffer_violated",
    "Verif.C96_abi_partial",
    "Verif.C96_abi_violated"
   ],
   "note": "C96_success_partial: into a zero value, without extension fields, elements take at least a byte. C96_abi_partial: nothing is missing at the end, or no extensions. The rest is false, see C96_loop_violated (no bytes for an element), C96_abi_violated (missing extensions), C96_slice_violated and C96_buffer_violated (allocation before reading). C96_slice_length: a slice has the announced number of elements even after an error."
  },
  {
   "property": "C97",
   "status": "proved",
   "theorems": [
    "Verif.C97_encode",
    "Verif.C97_chain",
    "Verif.C97_map_order",
    "Verif.C97_decode"
   ],
   "note": "Lengths of arrays in values (checksums, Float128, Go arrays) are those of the value; Real and Whole as in C85. C97_decode: into a zero value, types without extension fields."
  },
  {
   "property": "C98",
   "status": "partial",
   "theorems": [
    "Verif.C98_encode_partial",
    "Verif.C98_read",
    "Verif.C98_write_partial",
    "Verif.C98_decode",
    "Verif.C98_action",
    "Verif.C98_bytes_violated",
    "Verif.C98_optional_violated",
    "Verif.C98_variant_violated"
   ],
   "note": "Encode and Abi.Encode: not where \"bytes\" occurs, where the claim is false (C98_bytes_violated); reading is proved with bytes. Optional fields that are no pointers and variants are not related by the specification: C98_optional_violated and C98_variant_violated show why. No extension types for C98_decode and C98_action. Into a zero value for C98_decode."
  },
  {
   "property": "C99",
   "status": "proved",
   "theorems": [
    "Verif.C99_chain",
    "Verif.C99_kept",
    "Verif.C99_decode",
    "Verif.C99_variant",
    "Verif.C99_basic",
    "Verif.C99_pair",
    "Verif.C99_undone_violated"
   ],
   "note": "Previous content: Held, as in C37. C99_undone_violated: the destination need not be as it was."
  },
  {
   "property": "C100",
   "status": "proved",
   "theorems": [
    "Verif.C100_reader",
    "Verif.C100_variant",
    "Verif.C100_decode",
    "Verif.C100_apart",
    "Verif.C100_fresh",
    "Verif.C100_reuse",
    "Verif.C100_pointer",
    "Verif.C100_map",
    "Verif.C100_loop_violated",
    "Verif.C100_alias_violated"
   ],
   "note": "Simplified: slices are whole arrays, no pointers into structs or arrays, map keys without pointers, the slices inside chain types are values. C100_loop_violated: a copy of the first result changes when the second is decoded. C100_alias_violated: why nothing may be reached in two ways."
  },
  {
   "property": "C101",
   "status": "proved",
   "theorems": [
    "Verif.C101_writer",
    "Verif.C101_chain",
    "Verif.C101_reflect",
    "Verif.C101_optional",
    "Verif.C101_abi",
    "Verif.C101_abi_optional",
    "Verif.C101_reflect_violated",
    "Verif.C101_abi_violated"
   ],
   "note": "A write of no bytes to a full writer succeeds. C101_reflect_violated and C101_abi_violated: nil although bytes are missing."
  },
  {
   "property": "C102",
   "status": "proved",
   "theorems": [
    "Verif.C102_read",
    "Verif.C102_whole",
    "Verif.C102_crash",
    "Verif.C102_eof_violated",
    "Verif.C102_endless_violated"
   ],
   "note": "Each value is decoded into a fresh variable; for one variable used again see C37 and C100. C102_eof_violated: io.EOF inside a value. C102_endless_violated: values without bytes."
  },
  {
   "property": "C103",
   "status": "proved",
   "theorems": [
    "Verif.C103_local",
    "Verif.C103_appended",
    "Verif.C103_order",
    "Verif.C103_variant_decode",
    "Verif.C103_variant_encode",
    "Verif.C103_shadow_violated",
    "Verif.C103_front_violated"
   ],
   "note": "C103_variant_encode and C103_variant_decode are about what succeeds (or ends with io.EOF): an error about an unknown alternative goes away when the alternative is added. C103_shadow_violated: a new alias named uint8. C103_front_violated: a new first alternative."
  },
  {
   "property": "C104",
   "status": "proved",
   "theorems": [
    "Verif.C104_encode",
    "Verif.C104_local",
    "Verif.C104_copy",
    "Verif.C104_independent",
    "Verif.C104_sharing_violated"
   ],
   "note": "Simplified as C100. C104_copy: types and values that Encode and Decode support (C40). C104_sharing_violated: one pointer in two fields becomes two."
  },
  {
   "property": "C105",
   "status": "proved",
   "theorems": [
    "Verif.C105_decode",
    "Verif.C105_old_data",
    "Verif.C105_new_data",
    "Verif.C105_encode",
    "Verif.C105_leave_out_violated",
    "Verif.C105_inside_violated"
   ],
   "note": "The old fields do not mention the struct itself. C105_leave_out_violated: a map without the extension is refused by Encode. C105_inside_violated: the struct in an array, followed by a text."
  },
  {
   "property": "C106",
   "status": "proved",
   "theorems": [
    "Verif.C106_read",
    "Verif.C106_whole",
    "Verif.C106_crash",
    "Verif.C106_endless_violated",
    "Verif.C106_eof_violated"
   ],
   "note": "Every value is decoded to a new value, as Decode always does. C106_eof_violated: io.EOF inside a value. C106_endless_violated: a type that is read from no input."
  },
  {
   "property": "C107",
   "status": "proved",
   "theorems": [
    "Verif.C107_encode",
    "Verif.C107_decode",
    "Verif.C107_new_data",
    "Verif.C107_old_data_violated",
    "Verif.C107_variant",
    "Verif.C107_variant_new"
   ],
   "note": "C107_old_data_violated: data from before an extension field was added are decoded with io.EOF instead of nil (finding 42), for every struct and every type of the field."
  },
  {
   "property": "C108",
   "status": "partial",
   "theorems": [
    "Verif.C108_sec",
    "Verif.C108_block",
    "Verif.C108_timePoint_partial",
    "Verif.C108_timePoint_violated"
   ],
   "note": "Complete for TimePointSec and BlockTimestamp. For TimePoint false outside of the years 0 to 9999 (C108_timePoint_violated), and the text has no microseconds (C57_microseconds_lost); proved to the millisecond inside."
  },
  {
   "property": "C109",
   "status": "partial",
   "theorems": [
    "Verif.C109_names",
    "Verif.C109_numbers",
    "Verif.C109_hex",
    "Verif.C109_times",
    "Verif.C109_symbol",
    "Verif.C109_symbol_any",
    "Verif.C109_asset_partial",
    "Verif.C109_asset_violated",
    "Verif.C109_base58",
    "Verif.C109_publicKey",
    "Verif.C109_signature"
   ],
   "note": "False for assets of the amount -2^63 (C109_asset_violated, from C17_violated_min); proved for all others and everything else."
  },
  {
   "property": "C110",
   "status": "partial",
   "theorems": [
    "Verif.C110_depth",
    "Verif.C110_ends",
    "Verif.C110_roundtrip_partial",
    "Verif.C110_cycle",
    "Verif.C110_endless",
    "Verif.C110_writes",
    "Verif.C110_ring",
    "Verif.C110_paths"
   ],
   "note": "Places of declared types must be behind a pointer, slice or map if the field is optional (`Indirect`). The round trip has the limits of C77_roundtrip_partial. On a cycle: never a nil error (C110_cycle), no return at all if nothing in memory is an error (C110_endless); that a writer of bounded room is filled is proved for rings of list items (C110_ring)."
  },
  {
   "property": "C111",
   "status": "proved",
   "theorems": [
    "Verif.C111_read",
    "Verif.C111_holds",
    "Verif.C111_write",
    "Verif.C111_above_violated"
   ],
   "note": "C111_above_violated: the number 0x80 0x00 is the first alternative for Abi.Decode and refused by DecodeVariant, so the restriction to bytes below 128 is needed."
  },
  {
   "property": "C112",
   "status": "proved",
   "theorems": [
    "Verif.C112_read",
    "Verif.C112_wire",
    "Verif.C112_write",
    "Verif.C112_action",
    "Verif.C112_converse_violated"
   ],
   "note": "Both directions in which it holds; C112_converse_violated shows that the third does not (finding 51 has the same cause)."
  },
  {
   "property": "C113",
   "status": "proved",
   "theorems": [
    "Verif.C113_decode",
    "Verif.C113_abi",
    "Verif.C113_same",
    "Verif.C113_action",
    "Verif.C113_panic_violated"
   ],
   "note": "The statement allows for panics of make; C113_panic_violated shows that these do differ (finding 63)."
  },
  {
   "property": "C114",
   "status": "proved",
   "theorems": [
    "Verif.C114_round_trip",
    "Verif.C114_pointer",
    "Verif.C114_address",
    "Verif.C114_ignored",
    "Verif.C114_methodless",
    "Verif.C114_read",
    "Verif.C114_nil",
    "Verif.C114_violated",
    "Verif.C114_nil_violated"
   ],
   "note": "C114_violated and C114_nil_violated show what the statement says of methods on the pointer and of nil pointers: code that expects MarshalABI to be called on every value is wrong."
  },
  {
   "property": "C115",
   "status": "proved",
   "theorems": [
    "Verif.C115_encode",
    "Verif.C115_pointer",
    "Verif.C115_decode",
    "Verif.C115_eof_violated"
   ],
   "note": "What Decode leaves in the destination after the error is not stated here. C115_eof_violated shows the exception for io.EOF."
  },
  {
   "property": "C116",
   "status": "proved",
   "theorems": [
    "Verif.C116_alternative",
    "Verif.C116_index",
    "Verif.C116_methods",
    "Verif.C116_methodless",
    "Verif.C116_self_violated",
    "Verif.C116_violated"
   ],
   "note": "C116_violated and C116_self_violated show what the skipped byte means: methods that keep a format are not enough for DecodeVariant, and UnmarshalABI cannot be written with DecodeVariant. The depth of calls in C116_self_violated is bounded by a number; the result holds for every bound above the length of the input."
  },
  {
   "property": "C117",
   "status": "proved",
   "theorems": [
    "Verif.C117_decode",
    "Verif.C117_variant",
    "Verif.C117_prefix_free"
   ],
   "note": "Destinations that hold something already are covered for DecodeVariant and, for data in the form of Encode, by C114."
  },
  {
   "property": "C118",
   "status": "proved",
   "theorems": [
    "Verif.C118_writes",
    "Verif.C118_error",
    "Verif.C118_panics",
    "Verif.C118_only"
   ],
   "note": "Values have fewer than 2^63 elements in each slice, string and map, as in Go; types are not recursive. How many bytes were written before an error is stated in C115."
  },
  {
   "property": "C119",
   "status": "proved",
   "theorems": [
    "Verif.C119_writes_or_panics",
    "Verif.C119_normalises",
    "Verif.C119_pointer_differs"
   ],
   "note": "Into new variables. When Encode panics follows from C118: a length or a number above the bound of the varuint writer, or a method. C119_pointer_differs shows that the receiver matters (finding in C114_violated)."
  },
  {
   "property": "C120",
   "status": "proved",
   "theorems": [
    "Verif.C120_decode",
    "Verif.C120_struct",
    "Verif.C120_variant"
   ],
   "note": "Into new variables; the embedded types are those of package chain. That the other fields are not read is the defect of C84 (partial); this is the exact set of what is read instead."
  }
 ]
}