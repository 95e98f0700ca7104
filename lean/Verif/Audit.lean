import Verif.Props.AbiBinary
import Verif.Props.AbiBreaks
import Verif.Props.AbiCanon
import Verif.Props.AbiCodec
import Verif.Props.AbiEnds
import Verif.Props.AbiExt
import Verif.Props.AbiExtend
import Verif.Props.AbiFails
import Verif.Props.AbiFields
import Verif.Props.AbiGrow
import Verif.Props.AbiJson
import Verif.Props.AbiLog
import Verif.Props.AbiResolve
import Verif.Props.AbiTakes
import Verif.Props.AbiTerm
import Verif.Props.ActionDecode
import Verif.Props.Args
import Verif.Props.Base58
import Verif.Props.Bench
import Verif.Props.Blob
import Verif.Props.Canon
import Verif.Props.ChainStream
import Verif.Props.Codegen
import Verif.Props.CodegenExact
import Verif.Props.CodegenText
import Verif.Props.Custom
import Verif.Props.Embed
import Verif.Props.EmbedTakes
import Verif.Props.Evolve
import Verif.Props.Fails
import Verif.Props.Fault
import Verif.Props.Fields
import Verif.Props.Float
import Verif.Props.Full
import Verif.Props.Graph
import Verif.Props.Json
import Verif.Props.JsonAbi
import Verif.Props.JsonAbiDoc
import Verif.Props.JsonDoc
import Verif.Props.JsonFail
import Verif.Props.JsonOf
import Verif.Props.JsonRead
import Verif.Props.JsonSyntax
import Verif.Props.Keys
import Verif.Props.Kin
import Verif.Props.Leaves
import Verif.Props.Log
import Verif.Props.Make
import Verif.Props.Memory
import Verif.Props.MemoryEncode
import Verif.Props.MethodCanon
import Verif.Props.MethodErrors
import Verif.Props.MethodFault
import Verif.Props.MethodTakes
import Verif.Props.MethodVariants
import Verif.Props.Methods
import Verif.Props.Name
import Verif.Props.Numbers
import Verif.Props.Observed
import Verif.Props.Overwrite
import Verif.Props.Panics
import Verif.Props.Prim
import Verif.Props.Recursive
import Verif.Props.Reflect
import Verif.Props.ReflectEnds
import Verif.Props.ReflectOverwrite
import Verif.Props.ReflectStream
import Verif.Props.Ripemd
import Verif.Props.Sha2
import Verif.Props.Sizes
import Verif.Props.Stream
import Verif.Props.Symbol
import Verif.Props.Takes
import Verif.Props.Text
import Verif.Props.TextLength
import Verif.Props.Time
import Verif.Props.TimeOrder
import Verif.Props.Twin
import Verif.Props.TwinFails
import Verif.Props.TwinVariant
import Verif.Props.Tx
import Verif.Props.VariantEnc
import Verif.Props.WellTyped
import Verif.Props.WireSize
/-! Axioms of every property theorem (generated by tools/gen_manifest.py). -/
#print axioms Verif.C01_uint8
#print axioms Verif.C01_uint16
#print axioms Verif.C01_uint32
#print axioms Verif.C01_uint64
#print axioms Verif.C01_int8
#print axioms Verif.C01_int16
#print axioms Verif.C01_int32
#print axioms Verif.C01_int64
#print axioms Verif.C01_float32
#print axioms Verif.C01_float64
#print axioms Verif.C01_bool
#print axioms Verif.C02_varuint
#print axioms Verif.C03_varuint_iff_partial
#print axioms Verif.C03_varint_iff_partial
#print axioms Verif.C03_violated
#print axioms Verif.C04_varint
#print axioms Verif.C05_readVaruint_total
#print axioms Verif.C05_accepts_noncanonical
#print axioms Verif.C06_bytes
#print axioms Verif.C06_bytes_strict
#print axioms Verif.C06_string
#print axioms Verif.C06_string_panics
#print axioms Verif.C06_slice
#print axioms Verif.C07_chunking
#print axioms Verif.C07_chunking_list
#print axioms Verif.C08_append
#print axioms Verif.C08_locality
#print axioms Verif.C09_chain_strict
#print axioms Verif.C09_primitives
#print axioms Verif.C09_chain
#print axioms Verif.C09_reflect_cut
#print axioms Verif.C09_abi_cut
#print axioms Verif.C09_reflect_strict
#print axioms Verif.C09_reflect
#print axioms Verif.C09_abi_strict
#print axioms Verif.C09_abi
#print axioms Verif.C09_truncation
#print axioms Verif.C09_faults
#print axioms Verif.C09_primitives_strict
#print axioms Verif.C09_transactions_strict
#print axioms Verif.C09_transaction
#print axioms Verif.C09_action
#print axioms Verif.C10_chain_strict
#print axioms Verif.C10_sticky_partial
#print axioms Verif.C10_transactions_sticky_partial
#print axioms Verif.C10_violated
#print axioms Verif.C10_primitives
#print axioms Verif.C10_chain_partial
#print axioms Verif.C10_reflect_faults_partial
#print axioms Verif.C10_abi_faults_partial
#print axioms Verif.C10_transactions_lasting_partial
#print axioms Verif.C10_reflect_partial
#print axioms Verif.C10_optional_violated
#print axioms Verif.C10_abi_partial
#print axioms Verif.C10_abi_violated
#print axioms Verif.C10_write_errors
#print axioms Verif.C10_primitives_strict
#print axioms Verif.C100_reader
#print axioms Verif.C100_variant
#print axioms Verif.C100_decode
#print axioms Verif.C100_apart
#print axioms Verif.C100_fresh
#print axioms Verif.C100_reuse
#print axioms Verif.C100_pointer
#print axioms Verif.C100_map
#print axioms Verif.C100_loop_violated
#print axioms Verif.C100_alias_violated
#print axioms Verif.C101_writer
#print axioms Verif.C101_chain
#print axioms Verif.C101_reflect
#print axioms Verif.C101_optional
#print axioms Verif.C101_abi
#print axioms Verif.C101_abi_optional
#print axioms Verif.C101_reflect_violated
#print axioms Verif.C101_abi_violated
#print axioms Verif.C102_read
#print axioms Verif.C102_whole
#print axioms Verif.C102_crash
#print axioms Verif.C102_eof_violated
#print axioms Verif.C102_endless_violated
#print axioms Verif.C103_local
#print axioms Verif.C103_appended
#print axioms Verif.C103_order
#print axioms Verif.C103_variant_decode
#print axioms Verif.C103_variant_encode
#print axioms Verif.C103_shadow_violated
#print axioms Verif.C103_front_violated
#print axioms Verif.C104_encode
#print axioms Verif.C104_local
#print axioms Verif.C104_copy
#print axioms Verif.C104_independent
#print axioms Verif.C104_sharing_violated
#print axioms Verif.C105_decode
#print axioms Verif.C105_old_data
#print axioms Verif.C105_new_data
#print axioms Verif.C105_encode
#print axioms Verif.C105_leave_out_violated
#print axioms Verif.C105_inside_violated
#print axioms Verif.C106_read
#print axioms Verif.C106_whole
#print axioms Verif.C106_crash
#print axioms Verif.C106_endless_violated
#print axioms Verif.C106_eof_violated
#print axioms Verif.C107_encode
#print axioms Verif.C107_decode
#print axioms Verif.C107_new_data
#print axioms Verif.C107_old_data_violated
#print axioms Verif.C107_variant
#print axioms Verif.C107_variant_new
#print axioms Verif.C108_sec
#print axioms Verif.C108_block
#print axioms Verif.C108_timePoint_partial
#print axioms Verif.C108_timePoint_violated
#print axioms Verif.C109_names
#print axioms Verif.C109_numbers
#print axioms Verif.C109_hex
#print axioms Verif.C109_times
#print axioms Verif.C109_symbol
#print axioms Verif.C109_symbol_any
#print axioms Verif.C109_asset_partial
#print axioms Verif.C109_asset_violated
#print axioms Verif.C109_base58
#print axioms Verif.C109_publicKey
#print axioms Verif.C109_signature
#print axioms Verif.C11_name_roundtrip
#print axioms Verif.C11_name_text_roundtrip
#print axioms Verif.C110_depth
#print axioms Verif.C110_ends
#print axioms Verif.C110_roundtrip_partial
#print axioms Verif.C110_cycle
#print axioms Verif.C110_endless
#print axioms Verif.C110_writes
#print axioms Verif.C110_ring
#print axioms Verif.C110_paths
#print axioms Verif.C111_read
#print axioms Verif.C111_holds
#print axioms Verif.C111_write
#print axioms Verif.C111_above_violated
#print axioms Verif.C112_read
#print axioms Verif.C112_wire
#print axioms Verif.C112_write
#print axioms Verif.C112_action
#print axioms Verif.C112_converse_violated
#print axioms Verif.C113_decode
#print axioms Verif.C113_abi
#print axioms Verif.C113_same
#print axioms Verif.C113_action
#print axioms Verif.C113_panic_violated
#print axioms Verif.C114_round_trip
#print axioms Verif.C114_pointer
#print axioms Verif.C114_address
#print axioms Verif.C114_ignored
#print axioms Verif.C114_methodless
#print axioms Verif.C114_read
#print axioms Verif.C114_nil
#print axioms Verif.C114_violated
#print axioms Verif.C114_nil_violated
#print axioms Verif.C115_encode
#print axioms Verif.C115_pointer
#print axioms Verif.C115_decode
#print axioms Verif.C115_eof_violated
#print axioms Verif.C116_alternative
#print axioms Verif.C116_index
#print axioms Verif.C116_methods
#print axioms Verif.C116_methodless
#print axioms Verif.C116_self_violated
#print axioms Verif.C116_violated
#print axioms Verif.C117_decode
#print axioms Verif.C117_variant
#print axioms Verif.C117_prefix_free
#print axioms Verif.C118_writes
#print axioms Verif.C118_error
#print axioms Verif.C118_panics
#print axioms Verif.C118_only
#print axioms Verif.C119_writes_or_panics
#print axioms Verif.C119_normalises
#print axioms Verif.C119_pointer_differs
#print axioms Verif.C12_string_canonical
#print axioms Verif.C12_canonical_roundtrip
#print axioms Verif.C12_bijection
#print axioms Verif.C120_decode
#print axioms Verif.C120_struct
#print axioms Verif.C120_variant
#print axioms Verif.C13_order
#print axioms Verif.C14_newName_value
#print axioms Verif.C14_newName_prefix
#print axioms Verif.C14_violated_4GiB
#print axioms Verif.C14_name_binary
#print axioms Verif.C15_symbol_text
#print axioms Verif.C15_symbol_unmarshalText
#print axioms Verif.C15_symbol_string
#print axioms Verif.C15_symbolCode_text
#print axioms Verif.C16_newSymbol_iff
#print axioms Verif.C16_accessors
#print axioms Verif.C16_injective
#print axioms Verif.C17_violated_min
#print axioms Verif.C17_asset_text_partial
#print axioms Verif.C17_asset_unmarshalText_partial
#print axioms Verif.C18_newAsset_iff
#print axioms Verif.C18_newAsset_error
#print axioms Verif.C18_A
#print axioms Verif.C18_newAsset_accepts
#print axioms Verif.C19_string_partial
#print axioms Verif.C19_panics_iff
#print axioms Verif.C19_wide
#print axioms Verif.C19_violated
#print axioms Verif.C20_asset_binary
#print axioms Verif.C20_extendedAsset_binary
#print axioms Verif.C20_strict
#print axioms Verif.C21_bigInt
#print axioms Verif.C21_newUint128
#print axioms Verif.C21_newUint128_value
#print axioms Verif.C21_newUint128_panics
#print axioms Verif.C21_fromString_iff
#print axioms Verif.C21_fromString_error
#print axioms Verif.C21_string_roundtrip
#print axioms Verif.C22_bigInt
#print axioms Verif.C22_newInt128_partial
#print axioms Verif.C22_string_roundtrip_partial
#print axioms Verif.C22_violated
#print axioms Verif.C22_wraps
#print axioms Verif.C22_panics
#print axioms Verif.C22_newInt128_all
#print axioms Verif.C22_fromString_iff
#print axioms Verif.C22_fromString_error
#print axioms Verif.C23_marshal
#print axioms Verif.C23_uint64_roundtrip
#print axioms Verif.C23_accepts
#print axioms Verif.C23_uint64_exact
#print axioms Verif.C23_unmarshal_iff
#print axioms Verif.C23_blockNum_roundtrip
#print axioms Verif.C23_blockNum_rejects
#print axioms Verif.C24_float128_any_length
#print axioms Verif.C24_u128_binary
#print axioms Verif.C24_float128_binary
#print axioms Verif.C24_float128_text
#print axioms Verif.C24_strict
#print axioms Verif.C24_uint64_blockNum_binary
#print axioms Verif.C25_roundtrip
#print axioms Verif.C25_not_hex_partial
#print axioms Verif.C25_violated
#print axioms Verif.C26_roundtrip
#print axioms Verif.C26_not_hex_partial
#print axioms Verif.C26_hex_exact_partial
#print axioms Verif.C26_violated
#print axioms Verif.C27_marshal
#print axioms Verif.C27_roundtrip
#print axioms Verif.C27_accepts_iff
#print axioms Verif.C28_result
#print axioms Verif.C28_text_unchanged_partial
#print axioms Verif.C28_exact
#print axioms Verif.C28_violated
#print axioms Verif.C28_json_violated
#print axioms Verif.C29_roundtrip
#print axioms Verif.C30_roundtrip
#print axioms Verif.C30_violated
#print axioms Verif.C30_other_partial
#print axioms Verif.C30_cases
#print axioms Verif.C31_positional
#print axioms Verif.C31_unique
#print axioms Verif.C31_decode
#print axioms Verif.C32_roundtrip
#print axioms Verif.C32_roundtrip_eosio
#print axioms Verif.C32_decode
#print axioms Verif.C32_decode_eosio
#print axioms Verif.C33_text
#print axioms Verif.C33_parse
#print axioms Verif.C33_roundtrip
#print axioms Verif.C33_accepts
#print axioms Verif.C33_panics_partial
#print axioms Verif.C33_legacy_text
#print axioms Verif.C33_legacy_iff_partial
#print axioms Verif.C33_legacy_roundtrip_partial
#print axioms Verif.C33_violated_legacy
#print axioms Verif.C33_violated
#print axioms Verif.C33_unmarshalText
#print axioms Verif.C34_text
#print axioms Verif.C34_parse
#print axioms Verif.C34_roundtrip
#print axioms Verif.C34_cases_partial
#print axioms Verif.C34_ascii_partial
#print axioms Verif.C34_violated
#print axioms Verif.C35_key
#print axioms Verif.C35_key_wf
#print axioms Verif.C35_key_unknown
#print axioms Verif.C35_signature
#print axioms Verif.C35_signature_wf
#print axioms Verif.C35_signature_unknown
#print axioms Verif.C35_strict
#print axioms Verif.C36_action
#print axioms Verif.C36_permissionLevel
#print axioms Verif.C36_header
#print axioms Verif.C36_extension
#print axioms Verif.C36_transaction
#print axioms Verif.C36_action_range
#print axioms Verif.C36_header_range
#print axioms Verif.C36_transaction_range
#print axioms Verif.C37_name
#print axioms Verif.C37_symbol
#print axioms Verif.C37_asset
#print axioms Verif.C37_extendedAsset
#print axioms Verif.C37_uint128
#print axioms Verif.C37_float128
#print axioms Verif.C37_uint64
#print axioms Verif.C37_blockNum
#print axioms Verif.C37_timePoint
#print axioms Verif.C37_timePointSec
#print axioms Verif.C37_bytes
#print axioms Verif.C37_checksum
#print axioms Verif.C37_publicKey
#print axioms Verif.C37_signature
#print axioms Verif.C37_permissionLevel
#print axioms Verif.C37_action_partial
#print axioms Verif.C37_action_empty_partial
#print axioms Verif.C37_violated
#print axioms Verif.C37_header
#print axioms Verif.C37_extension
#print axioms Verif.C37_transaction
#print axioms Verif.C37_reflect_partial
#print axioms Verif.C37_reflect_zero_partial
#print axioms Verif.C37_decodeVariant_partial
#print axioms Verif.C37_reflect_violated
#print axioms Verif.C38_action
#print axioms Verif.C38_transaction
#print axioms Verif.C38_layout_action
#print axioms Verif.C38_layout_transaction
#print axioms Verif.C39_digest
#print axioms Verif.C39_panics_iff
#print axioms Verif.C39_collision
#print axioms Verif.C40_layout
#print axioms Verif.C40_reads
#print axioms Verif.C40_roundtrip_partial
#print axioms Verif.C40_exact
#print axioms Verif.C40_pointer
#print axioms Verif.C40_violated
#print axioms Verif.C41_order
#print axioms Verif.C41_duplicates
#print axioms Verif.C42_encode
#print axioms Verif.C42_encode_action
#print axioms Verif.C42_decode_partial
#print axioms Verif.C42_decode_back_partial
#print axioms Verif.C42_violated
#print axioms Verif.C43_sequence
#print axioms Verif.C43_sequence_error
#print axioms Verif.C43_optional_absent
#print axioms Verif.C43_optional_present
#print axioms Verif.C43_optional_error
#print axioms Verif.C43_optional_end
#print axioms Verif.C43_extension_present
#print axioms Verif.C43_extension_end_partial
#print axioms Verif.C43_extension_last_violated
#print axioms Verif.C43_extension_content
#print axioms Verif.C43_variant_selected
#print axioms Verif.C43_variant_range
#print axioms Verif.C43_variant_decodes
#print axioms Verif.C43_variant_field
#print axioms Verif.C43_variant_pointer
#print axioms Verif.C44_violated
#print axioms Verif.C44_violated_field
#print axioms Verif.C44_violated_single
#print axioms Verif.C45_layout
#print axioms Verif.C45_slice_iff
#print axioms Verif.C45_transaction_iff
#print axioms Verif.C45_array_iff
#print axioms Verif.C45_methods_partial
#print axioms Verif.C45_reflect_partial
#print axioms Verif.C45_sized
#print axioms Verif.C45_abi_partial
#print axioms Verif.C45_string_iff
#print axioms Verif.C45_violated
#print axioms Verif.C45_types_violated
#print axioms Verif.C45_variant_violated
#print axioms Verif.C46_terminates
#print axioms Verif.C46_describes
#print axioms Verif.C46_panics_iff
#print axioms Verif.C46_short
#print axioms Verif.C46_spelling
#print axioms Verif.C46_unique
#print axioms Verif.C46_violated
#print axioms Verif.C47_exact_partial
#print axioms Verif.C47_roundtrip_partial
#print axioms Verif.C47_decode
#print axioms Verif.C47_injective
#print axioms Verif.C47_violated
#print axioms Verif.C48_fields
#print axioms Verif.C48_fuel
#print axioms Verif.C48_unique
#print axioms Verif.C48_encode
#print axioms Verif.C48_decode
#print axioms Verif.C49_terminates_partial
#print axioms Verif.C49_diverges
#print axioms Verif.C49_violated
#print axioms Verif.C49_encode_violated
#print axioms Verif.C50_violated
#print axioms Verif.C50_base_partial
#print axioms Verif.C51_violated
#print axioms Verif.C51_prefixed_partial
#print axioms Verif.C52_sound
#print axioms Verif.C52_complete
#print axioms Verif.C52_missing
#print axioms Verif.C52_extra
#print axioms Verif.C52_iff
#print axioms Verif.C53_first
#print axioms Verif.C53_nil
#print axioms Verif.C53_actions
#print axioms Verif.C54_suffixes_partial
#print axioms Verif.C54_suffix_violated
#print axioms Verif.C54_inner_violated
#print axioms Verif.C54_absent
#print axioms Verif.C54_required
#print axioms Verif.C54_optional_violated
#print axioms Verif.C54_trailing
#print axioms Verif.C54_zero_violated
#print axioms Verif.C54_truncated_violated
#print axioms Verif.C54_truncated_partial
#print axioms Verif.C54_array_truncated
#print axioms Verif.C55_roundtrip
#print axioms Verif.C55_decode
#print axioms Verif.C55_represents
#print axioms Verif.C55_injective
#print axioms Verif.C55_no_variants_violated
#print axioms Verif.C55_nil_extension
#print axioms Verif.C56_timePoint
#print axioms Verif.C56_timePointSec
#print axioms Verif.C56_blockTimestamp
#print axioms Verif.C56_round
#print axioms Verif.C56_nearest
#print axioms Verif.C56_before_2000
#print axioms Verif.C57_calendar
#print axioms Verif.C57_date
#print axioms Verif.C57_sec_string
#print axioms Verif.C57_block_string
#print axioms Verif.C57_timePoint_string
#print axioms Verif.C57_sec_parse
#print axioms Verif.C57_timePoint_parse
#print axioms Verif.C57_block_parse
#print axioms Verif.C57_sec_roundtrip
#print axioms Verif.C57_block_roundtrip
#print axioms Verif.C57_timePoint_partial
#print axioms Verif.C57_timePoint_milli_partial
#print axioms Verif.C57_timePoint_violated
#print axioms Verif.C57_microseconds_lost
#print axioms Verif.C57_sec_wraps
#print axioms Verif.C57_unmarshalText
#print axioms Verif.C58_chunking
#print axioms Verif.C58_any_program
#print axioms Verif.C59_published
#print axioms Verif.C59_constants
#print axioms Verif.C60_marshal_partial
#print axioms Verif.C60_marshal_compiles_partial
#print axioms Verif.C60_unmarshal_partial
#print axioms Verif.C60_unmarshal_compiles_partial
#print axioms Verif.C60_interop_partial
#print axioms Verif.C60_array_violated
#print axioms Verif.C60_bytes_violated
#print axioms Verif.C60_struct_slice_violated
#print axioms Verif.C60_ptr_list_violated
#print axioms Verif.C60_two_pointers_violated
#print axioms Verif.C60_declared_violated
#print axioms Verif.C60_nil_violated
#print axioms Verif.C60_stale_violated
#print axioms Verif.C60_extension_violated
#print axioms Verif.C60_optional_violated
#print axioms Verif.C60_map_violated
#print axioms Verif.C60_marshal_compiles_iff
#print axioms Verif.C60_unmarshal_compiles_iff
#print axioms Verif.C61_encode_first
#print axioms Verif.C61_decode_first
#print axioms Verif.C61_encode_declined
#print axioms Verif.C61_decode_declined
#print axioms Verif.C61_encode_chain
#print axioms Verif.C61_decode_chain
#print axioms Verif.C61_encode_slice
#print axioms Verif.C61_encode_slice_error
#print axioms Verif.C61_encode_field
#print axioms Verif.C61_encode_field_error
#print axioms Verif.C61_decode_slice
#print axioms Verif.C61_decode_field
#print axioms Verif.C61_decode_field_error
#print axioms Verif.C61_violated
#print axioms Verif.C61_plain
#print axioms Verif.C62_checksum_binary
#print axioms Verif.C62_strict
#print axioms Verif.C63_key
#print axioms Verif.C63_signature
#print axioms Verif.C63_unchanged_partial
#print axioms Verif.C63_violated
#print axioms Verif.C64_blockNum_string
#print axioms Verif.C64_order
#print axioms Verif.C65_accepts_iff
#print axioms Verif.C65_error
#print axioms Verif.C66_faults_partial
#print axioms Verif.C66_primitives
#print axioms Verif.C66_chain_partial
#print axioms Verif.C66_reflect_partial
#print axioms Verif.C66_abi
#print axioms Verif.C66_violated
#print axioms Verif.C67_violated
#print axioms Verif.C67_other_errors_partial
#print axioms Verif.C67_fixed_partial
#print axioms Verif.C68_roundtrip_partial
#print axioms Verif.C68_any_old_partial
#print axioms Verif.C68_signature_violated
#print axioms Verif.C69_action
#print axioms Verif.C69_transaction
#print axioms Verif.C69_read_action
#print axioms Verif.C69_read_transaction
#print axioms Verif.C70_abi_partial
#print axioms Verif.C70_invalid_utf8_violated
#print axioms Verif.C70_string
#print axioms Verif.C70_document
#print axioms Verif.C70_read
#print axioms Verif.C70_reuse_violated
#print axioms Verif.C71_valid
#print axioms Verif.C71_refused
#print axioms Verif.C72_unknown
#print axioms Verif.C72_order
#print axioms Verif.C73_action
#print axioms Verif.C73_transaction
#print axioms Verif.C74_reads
#print axioms Verif.C74_permission
#print axioms Verif.C74_syntax
#print axioms Verif.C74_refused
#print axioms Verif.C74_string
#print axioms Verif.C74_literal
#print axioms Verif.C74_string_read
#print axioms Verif.C75_text
#print axioms Verif.C75_float_partial
#print axioms Verif.C75_monotone
#print axioms Verif.C75_exact
#print axioms Verif.C75_close
#print axioms Verif.C75_violated_min
#print axioms Verif.C75_decimals_violated
#print axioms Verif.C76_decode_partial
#print axioms Verif.C76_not_map
#print axioms Verif.C76_either
#print axioms Verif.C76_new
#print axioms Verif.C76_trailing_violated
#print axioms Verif.C76_empty_violated
#print axioms Verif.C76_into_partial
#print axioms Verif.C77_depth_decode
#print axioms Verif.C77_depth_encode
#print axioms Verif.C77_depth_values
#print axioms Verif.C77_encode_ends
#print axioms Verif.C77_decode_ends_partial
#print axioms Verif.C77_roundtrip_partial
#print axioms Verif.C77_unguarded_violated
#print axioms Verif.C77_depth_linear
#print axioms Verif.C77_vector
#print axioms Verif.C78_decoded
#print axioms Verif.C78_document_partial
#print axioms Verif.C78_exponent
#print axioms Verif.C78_exponent32
#print axioms Verif.C78_writes_iff
#print axioms Verif.C78_order
#print axioms Verif.C78_back_partial
#print axioms Verif.C78_number
#print axioms Verif.C78_reads
#print axioms Verif.C78_refuses
#print axioms Verif.C78_nan_violated
#print axioms Verif.C78_asset_violated
#print axioms Verif.C78_signature_violated
#print axioms Verif.C78_back_violated
#print axioms Verif.C79_sha256
#print axioms Verif.C79_sha512
#print axioms Verif.C79_unique
#print axioms Verif.C79_action
#print axioms Verif.C79_check
#print axioms Verif.C79_check_decode
#print axioms Verif.C80_methods
#print axioms Verif.C80_chain
#print axioms Verif.C80_prefix_free
#print axioms Verif.C81_decode
#print axioms Verif.C81_variant
#print axioms Verif.C81_over
#print axioms Verif.C81_prefix_free
#print axioms Verif.C82_decode
#print axioms Verif.C82_sound
#print axioms Verif.C82_prefix_free
#print axioms Verif.C82_wire
#print axioms Verif.C83_value_partial
#print axioms Verif.C83_nil_partial
#print axioms Verif.C83_pointer
#print axioms Verif.C83_encode
#print axioms Verif.C83_encode_value
#print axioms Verif.C83_violated
#print axioms Verif.C83_nil_basic_violated
#print axioms Verif.C83_nil_fails
#print axioms Verif.C83_nil_chain_violated
#print axioms Verif.C83_nil_name
#print axioms Verif.C84_fields_partial
#print axioms Verif.C84_encode_violated
#print axioms Verif.C84_encode_value_violated
#print axioms Verif.C84_decode_violated
#print axioms Verif.C84_one_partial
#print axioms Verif.C84_encode_nil_violated
#print axioms Verif.C84_decode_nil_violated
#print axioms Verif.C84_violated
#print axioms Verif.C84_asset_violated
#print axioms Verif.C84_nested_violated
#print axioms Verif.C84_nested_partial
#print axioms Verif.C84_nested_top
#print axioms Verif.C85_writes
#print axioms Verif.C85_error
#print axioms Verif.C85_panics
#print axioms Verif.C85_iff
#print axioms Verif.C85_chain
#print axioms Verif.C85_chain_panics
#print axioms Verif.C86_writes_or_panics
#print axioms Verif.C86_normalises
#print axioms Verif.C86_chain
#print axioms Verif.C86_panics_reached
#print axioms Verif.C86_blank_differs
#print axioms Verif.C87_members
#print axioms Verif.C87_member
#print axioms Verif.C87_member_other
#print axioms Verif.C87_member_none
#print axioms Verif.C87_elements
#print axioms Verif.C87_null
#print axioms Verif.C87_kind
#print axioms Verif.C87_pointer
#print axioms Verif.C87_text
#print axioms Verif.C87_blob
#print axioms Verif.C87_bytes
#print axioms Verif.C87_int128
#print axioms Verif.C87_uint64
#print axioms Verif.C88_normalises
#print axioms Verif.C88_writes
#print axioms Verif.C88_alias_violated
#print axioms Verif.C88_duplicate_violated
#print axioms Verif.C89_decode
#print axioms Verif.C89_stops
#print axioms Verif.C89_sound
#print axioms Verif.C89_complete
#print axioms Verif.C89_only_at_end
#print axioms Verif.C89_broken_source
#print axioms Verif.C89_half_violated
#print axioms Verif.C90_total
#print axioms Verif.C90_breaks
#print axioms Verif.C90_iff
#print axioms Verif.C90_unique
#print axioms Verif.C90_terminates
#print axioms Verif.C90_errors
#print axioms Verif.C91_text
#print axioms Verif.C91_panics
#print axioms Verif.C91_struct
#print axioms Verif.C92_chain_marshal
#print axioms Verif.C92_chain_unmarshal
#print axioms Verif.C92_ref
#print axioms Verif.C92_write
#print axioms Verif.C92_read
#print axioms Verif.C92_marshal
#print axioms Verif.C92_unmarshal
#print axioms Verif.C92_illTyped
#print axioms Verif.C93_chain
#print axioms Verif.C93_decode
#print axioms Verif.C93_eof
#print axioms Verif.C93_lacking
#print axioms Verif.C93_variant
#print axioms Verif.C93_variant_eof
#print axioms Verif.C93_strait
#print axioms Verif.C93_silent_violated
#print axioms Verif.C94_chain
#print axioms Verif.C94_decode
#print axioms Verif.C94_variant
#print axioms Verif.C94_total
#print axioms Verif.C94_eof
#print axioms Verif.C94_errors
#print axioms Verif.C94_broken
#print axioms Verif.C94_ends
#print axioms Verif.C94_depth
#print axioms Verif.C94_depth_ends
#print axioms Verif.C95_decode
#print axioms Verif.C95_sound
#print axioms Verif.C95_endless
#print axioms Verif.C95_total
#print axioms Verif.C95_eof
#print axioms Verif.C95_errors
#print axioms Verif.C95_action
#print axioms Verif.C95_action_decode
#print axioms Verif.C95_grounded
#print axioms Verif.C95_cyclic
#print axioms Verif.C96_success_partial
#print axioms Verif.C96_chain
#print axioms Verif.C96_slice_length
#print axioms Verif.C96_slice_violated
#print axioms Verif.C96_loop_violated
#print axioms Verif.C96_buffer_violated
#print axioms Verif.C96_abi_partial
#print axioms Verif.C96_abi_violated
#print axioms Verif.C97_encode
#print axioms Verif.C97_chain
#print axioms Verif.C97_map_order
#print axioms Verif.C97_decode
#print axioms Verif.C98_encode_partial
#print axioms Verif.C98_read
#print axioms Verif.C98_write_partial
#print axioms Verif.C98_decode
#print axioms Verif.C98_action
#print axioms Verif.C98_bytes_violated
#print axioms Verif.C98_optional_violated
#print axioms Verif.C98_variant_violated
#print axioms Verif.C99_chain
#print axioms Verif.C99_kept
#print axioms Verif.C99_decode
#print axioms Verif.C99_variant
#print axioms Verif.C99_basic
#print axioms Verif.C99_pair
#print axioms Verif.C99_undone_violated
