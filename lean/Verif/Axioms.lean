import Verif.Props.Args
import Verif.Props.Around
import Verif.Props.Assemble
import Verif.Props.Charset
import Verif.Props.Counts
import Verif.Props.Crc
import Verif.Props.CrcCount
import Verif.Props.CrcFew
import Verif.Props.CrcFive
import Verif.Props.CrcHw
import Verif.Props.CrcSix
import Verif.Props.Crcutil
import Verif.Props.Damage
import Verif.Props.DamageMarker
import Verif.Props.Data
import Verif.Props.Decode
import Verif.Props.EncRange
import Verif.Props.Encode
import Verif.Props.Find
import Verif.Props.FromPost
import Verif.Props.Header
import Verif.Props.Heap
import Verif.Props.InPlace
import Verif.Props.Incremental
import Verif.Props.Interop
import Verif.Props.Ints
import Verif.Props.Legacy
import Verif.Props.LegacyData
import Verif.Props.LegacyEffects
import Verif.Props.Long
import Verif.Props.Message
import Verif.Props.Name
import Verif.Props.Number
import Verif.Props.Platform
import Verif.Props.Post
import Verif.Props.Ratio
import Verif.Props.Reassemble
import Verif.Props.Recipe
import Verif.Props.Regex
import Verif.Props.Retry
import Verif.Props.Shared
import Verif.Props.SharedCrc
import Verif.Props.SharedEnc
import Verif.Props.SharedPost
import Verif.Props.SharedSimd
import Verif.Props.Simd
import Verif.Props.SimdEnc
import Verif.Props.Sizes
import Verif.Props.Startup
import Verif.Props.Stream
import Verif.Props.Stuffed
import Verif.Props.This
import Verif.Props.Threads
import Verif.Props.Undefined
import Verif.Props.UndefinedIncr
import Verif.Props.Wide
import Verif.Props.WideLoop
import Verif.Props.Work
/-! Axioms of every property theorem (generated by tools/gen.py). -/

#print axioms Yenc.Props.C96_same
#print axioms Yenc.Props.C96_parts
#print axioms Yenc.Props.C96_bytes
#print axioms Yenc.Props.C96_single
#print axioms Yenc.Props.C96_header_false
#print axioms Yenc.Props.C96_line_false
#print axioms Yenc.Props.C96_line_wraps_false
#print axioms Yenc.Props.C96_line_negative
#print axioms Yenc.Props.C72_before
#print axioms Yenc.Props.C72_after
#print axioms Yenc.Props.C72_newline
#print axioms Yenc.Props.C72_embedded
#print axioms Yenc.Props.C72_article
#print axioms Yenc.Props.C72_article_parts
#print axioms Yenc.Props.C72_two_posts_false
#print axioms Yenc.Props.C81_combined_crc
#print axioms Yenc.Props.C81_last_part_crc
#print axioms Yenc.Props.C82_any_order
#print axioms Yenc.Props.C93_total
#print axioms Yenc.Props.C93_same_function
#print axioms Yenc.Props.C93_name
#print axioms Yenc.Props.C93_ascii_name
#print axioms Yenc.Props.C93_name_false
#print axioms Yenc.Props.C93_utf16
#print axioms Yenc.Props.C93_utf16_own
#print axioms Yenc.Props.C93_utf16_false
#print axioms Yenc.Props.C93_hex
#print axioms Yenc.Props.C53_encodeTo_exact
#print axioms Yenc.Props.C53_decodeTo_exact
#print axioms Yenc.Props.C53_decodeChunk_exact
#print axioms Yenc.Props.C53_read_exact
#print axioms Yenc.Props.C25_crc32
#print axioms Yenc.Props.C25_crc32_unique
#print axioms Yenc.Props.C37_crc32_address
#print axioms Yenc.Props.C26_crc32_incremental
#print axioms Yenc.Props.C26_crc32_pieces
#print axioms Yenc.Props.C36_crc_buffers
#print axioms Yenc.Props.C27_combine
#print axioms Yenc.Props.C28_zeroes
#print axioms Yenc.Props.C29_zeroes_negative
#print axioms Yenc.Props.C30_multiply
#print axioms Yenc.Props.C30_multiply_field
#print axioms Yenc.Props.C31_shift
#print axioms Yenc.Props.C31_shift_group
#print axioms Yenc.Props.C32_combine_by_shift
#print axioms Yenc.Props.C33_powmod
#print axioms Yenc.Props.C33_bytepow
#print axioms Yenc.Props.C33_bytepow_portable_false
#print axioms Yenc.Props.C33_bytepow_portable_partial
#print axioms Yenc.Props.C33_shift_portable
#print axioms Yenc.Props.C34_zeroes_truncates
#print axioms Yenc.Props.C34_zeroes_large_false
#print axioms Yenc.Props.C35_burst
#print axioms Yenc.Props.C35_burst_bytes
#print axioms Yenc.Props.C54_two_bits
#print axioms Yenc.Props.C55_affine
#print axioms Yenc.Props.C56_init_bijective
#print axioms Yenc.Props.C57_shift_enumerates
#print axioms Yenc.Props.C59_powers
#print axioms Yenc.Props.C58_bad_crc_arguments
#print axioms Yenc.Props.C87_patch
#print axioms Yenc.Props.C87_uniform
#print axioms Yenc.Props.C87_unnoticed
#print axioms Yenc.Props.C88_three_bits
#print axioms Yenc.Props.C88_short
#print axioms Yenc.Props.C88_long_false
#print axioms Yenc.Props.C94_two_bytes
#print axioms Yenc.Props.C94_short
#print axioms Yenc.Props.C94_long_false
#print axioms Yenc.Props.C95_four_bits
#print axioms Yenc.Props.C95_short
#print axioms Yenc.Props.C95_long_false
#print axioms Yenc.Props.C110_five_bits
#print axioms Yenc.Props.C110_short
#print axioms Yenc.Props.C110_long_false
#print axioms Yenc.Props.C41_functions
#print axioms Yenc.Props.C41_api
#print axioms Yenc.Props.C41_long
#print axioms Yenc.Props.C62_long_false
#print axioms Yenc.Props.C111_six_bits
#print axioms Yenc.Props.C111_short
#print axioms Yenc.Props.C111_long_false
#print axioms Yenc.Props.C66_crc
#print axioms Yenc.Props.C66_portable
#print axioms Yenc.Props.C66_start
#print axioms Yenc.Props.C78_damage_local
#print axioms Yenc.Props.C78_tight
#print axioms Yenc.Props.C78_chunk
#print axioms Yenc.Props.C78_chunk_false
#print axioms Yenc.Props.C79_single
#print axioms Yenc.Props.C79_keyword_needed
#print axioms Yenc.Props.C79_parts
#print axioms Yenc.Props.C79_marker_single
#print axioms Yenc.Props.C79_marker_parts
#print axioms Yenc.Props.C79_insert_false
#print axioms Yenc.Props.C77_text_round_trip_partial
#print axioms Yenc.Props.C77_text_parts_partial
#print axioms Yenc.Props.C77_size_in_bytes
#print axioms Yenc.Props.C77_length_as_size
#print axioms Yenc.Props.C77_lone_surrogate_false
#print axioms Yenc.Props.C77_cut_character_false
#print axioms Yenc.Props.C77_unusable_data
#print axioms Yenc.Props.C77_array
#print axioms Yenc.Props.C15_decode_plain
#print axioms Yenc.Props.C15_decode_strip_generic
#print axioms Yenc.Props.C15_decode_strip_partial
#print axioms Yenc.Props.C15_decode_strip_any_partial
#print axioms Yenc.Props.C16_decode_size
#print axioms Yenc.Props.C18_decode_no_ub
#print axioms Yenc.Props.C16_decodeTo
#print axioms Yenc.Props.C49_decodeTo_short
#print axioms Yenc.Props.C24_stuffing_undone_generic
#print axioms Yenc.Props.C24_stuffing_undone_partial
#print axioms Yenc.Props.C19_chunk_independent
#print axioms Yenc.Props.C08_never_terminator
#print axioms Yenc.Props.C20_end_detection
#print axioms Yenc.Props.C21_read
#print axioms Yenc.Props.C22_output
#print axioms Yenc.Props.C23_state_round_trip
#print axioms Yenc.Props.C23_states_distinguished
#print axioms Yenc.Props.C23_ended_state_throws
#print axioms Yenc.Props.C52_readme_order
#print axioms Yenc.Props.C52_output_buffer
#print axioms Yenc.Props.C53_count_truncated
#print axioms Yenc.Props.C53_count_exact
#print axioms Yenc.Props.C103_largest
#print axioms Yenc.Props.C103_smallest
#print axioms Yenc.Props.C103_maxSize_even
#print axioms Yenc.Props.C103_maxSize_odd
#print axioms Yenc.Props.C03_encode_reference
#print axioms Yenc.Props.C01_round_trip
#print axioms Yenc.Props.C02_round_trip_nntp
#print axioms Yenc.Props.C02_column_needed
#print axioms Yenc.Props.C04_safe_bytes
#print axioms Yenc.Props.C05_line_starts
#print axioms Yenc.Props.C06_line_ends
#print axioms Yenc.Props.C07_line_lengths
#print axioms Yenc.Props.C07_empty
#print axioms Yenc.Props.C09_max_size
#print axioms Yenc.Props.C10_min_size_false
#print axioms Yenc.Props.C10_min_size_partial
#print axioms Yenc.Props.C11_encodeTo
#print axioms Yenc.Props.C11_never_ub_partial
#print axioms Yenc.Props.C11_never_ub_vector
#print axioms Yenc.Props.C11_never_ub_false
#print axioms Yenc.Props.C12_max_size_accepted
#print axioms Yenc.Props.C13_arguments
#print axioms Yenc.Props.C13_not_a_buffer
#print axioms Yenc.Props.C50_injective
#print axioms Yenc.Props.C51_layout_independent
#print axioms Yenc.Props.C71_find
#print axioms Yenc.Props.C71_find_last
#print axioms Yenc.Props.C71_same
#print axioms Yenc.Props.C71_large_false
#print axioms Yenc.Props.C45_single
#print axioms Yenc.Props.C45_parts
#print axioms Yenc.Props.C45_empty_part_false
#print axioms Yenc.Props.C46_from_post_total
#print axioms Yenc.Props.C60_from_post_sound
#print axioms Yenc.Props.C61_warnings_exact
#print axioms Yenc.Props.C61_size_exact
#print axioms Yenc.Props.C61_proto_skips_check_false
#print axioms Yenc.Props.C63_properties
#print axioms Yenc.Props.C63_unique
#print axioms Yenc.Props.C63_written
#print axioms Yenc.Props.C63_written_name
#print axioms Yenc.Props.C64_line_warnings
#print axioms Yenc.Props.C64_value_warnings
#print axioms Yenc.Props.C64_consistency_warnings
#print axioms Yenc.Props.C64_codes
#print axioms Yenc.Props.C64_numbers
#print axioms Yenc.Props.C64_constructor_false
#print axioms Yenc.Props.C64_tag_false
#print axioms Yenc.Props.C61_empty
#print axioms Yenc.Props.C65_no_start
#print axioms Yenc.Props.C65_no_end
#print axioms Yenc.Props.C65_required
#print axioms Yenc.Props.C84_calls
#print axioms Yenc.Props.C84_no_ub
#print axioms Yenc.Props.C84_no_leak
#print axioms Yenc.Props.C84_all_released
#print axioms Yenc.Props.C84_throw_unchanged
#print axioms Yenc.Props.C84_refused_false
#print axioms Yenc.Props.C84_refused_shrink_false
#print axioms Yenc.Props.C84_detects
#print axioms Yenc.Props.C84_reported
#print axioms Yenc.Props.C17_decodeTo_in_place
#print axioms Yenc.Props.C17_decodeChunk_in_place
#print axioms Yenc.Props.C17_output_ahead_of_input_differs
#print axioms Yenc.Props.C14_incremental_false
#print axioms Yenc.Props.C14_incremental_partial
#print axioms Yenc.Props.C14_decodes
#print axioms Yenc.Props.C14_line_size_one_false
#print axioms Yenc.Props.C14_exact
#print axioms Yenc.Props.C101_decode
#print axioms Yenc.Props.C101_decode_stuffed
#print axioms Yenc.Props.C101_encode
#print axioms Yenc.Props.C101_received
#print axioms Yenc.Props.C101_keyword_false
#print axioms Yenc.Props.C101_section
#print axioms Yenc.Props.C101_section_stuffed
#print axioms Yenc.Props.C101_article
#print axioms Yenc.Props.C101_article_part
#print axioms Yenc.Props.C74_vector
#print axioms Yenc.Props.C74_portable
#print axioms Yenc.Props.C74_overflow_false
#print axioms Yenc.Props.C74_encode_partial
#print axioms Yenc.Props.C107_converted
#print axioms Yenc.Props.C107_incr
#print axioms Yenc.Props.C107_same
#print axioms Yenc.Props.C107_undefined
#print axioms Yenc.Props.C107_defined
#print axioms Yenc.Props.C107_encode_defined
#print axioms Yenc.Props.C107_incr_defined
#print axioms Yenc.Props.C108_same
#print axioms Yenc.Props.C108_unusable_data
#print axioms Yenc.Props.C108_number_single
#print axioms Yenc.Props.C108_parts
#print axioms Yenc.Props.C108_depends_on_arguments_false
#print axioms Yenc.Props.C109_encode
#print axioms Yenc.Props.C109_incr
#print axioms Yenc.Props.C109_empty
#print axioms Yenc.Props.C109_crc
#print axioms Yenc.Props.C109_defined
#print axioms Yenc.Props.C109_on_entry_false
#print axioms Yenc.Props.C75_encode_partial
#print axioms Yenc.Props.C75_encode_x86
#print axioms Yenc.Props.C75_decode_partial
#print axioms Yenc.Props.C75_encode_false
#print axioms Yenc.Props.C75_decode_false
#print axioms Yenc.Props.C104_codes
#print axioms Yenc.Props.C104_quotes
#print axioms Yenc.Props.C104_unique
#print axioms Yenc.Props.C104_table
#print axioms Yenc.Props.C104_errors
#print axioms Yenc.Props.C47_exact
#print axioms Yenc.Props.C47_exact_parts
#print axioms Yenc.Props.C69_exact
#print axioms Yenc.Props.C69_integral
#print axioms Yenc.Props.C69_ratio_range
#print axioms Yenc.Props.C69_ratio
#print axioms Yenc.Props.C61_size_digits
#print axioms Yenc.Props.C64_large_false
#print axioms Yenc.Props.C68_encode_partial
#print axioms Yenc.Props.C68_never_ub_partial
#print axioms Yenc.Props.C68_64
#print axioms Yenc.Props.C68_32_partial
#print axioms Yenc.Props.C68_32_false
#print axioms Yenc.Props.C68_combine_partial
#print axioms Yenc.Props.C68_combine_32_false
#print axioms Yenc.Props.C42_multi_post_parts
#print axioms Yenc.Props.C42_multi_post_single
#print axioms Yenc.Props.C42_ranges
#print axioms Yenc.Props.C43_multi_post_crcs
#print axioms Yenc.Props.C43_running_crc
#print axioms Yenc.Props.C44_multi_post_protocol
#print axioms Yenc.Props.C44_multi_post_complete
#print axioms Yenc.Props.C44_single_post_protocol
#print axioms Yenc.Props.C47_header_injection_false
#print axioms Yenc.Props.C47_sanitiser_incomplete
#print axioms Yenc.Props.C47_one_line_partial
#print axioms Yenc.Props.C48_post_false
#print axioms Yenc.Props.C83_expected
#print axioms Yenc.Props.C83_readme_ratio
#print axioms Yenc.Props.C83_tail_1k
#print axioms Yenc.Props.C83_tail_128k
#print axioms Yenc.Props.C83_tail
#print axioms Yenc.Props.C105_assembled
#print axioms Yenc.Props.C105_complete
#print axioms Yenc.Props.C105_article
#print axioms Yenc.Props.C105_download
#print axioms Yenc.Props.C99_recipe
#print axioms Yenc.Props.C99_pieces
#print axioms Yenc.Props.C99_pieces_post
#print axioms Yenc.Props.C99_break_needed
#print axioms Yenc.Props.C100_match
#print axioms Yenc.Props.C100_number
#print axioms Yenc.Props.C100_hex
#print axioms Yenc.Props.C100_same
#print axioms Yenc.Props.C100_work_partial
#print axioms Yenc.Props.C100_own_single
#print axioms Yenc.Props.C100_own_parts
#print axioms Yenc.Props.C100_letters
#print axioms Yenc.Props.C100_linear_false
#print axioms Yenc.Props.C76_retry_false
#print axioms Yenc.Props.C76_gap_witness
#print axioms Yenc.Props.C76_crc_witness
#print axioms Yenc.Props.C76_refusal_final
#print axioms Yenc.Props.C76_part_numbers
#print axioms Yenc.Props.C76_single_retry_partial
#print axioms Yenc.Props.C89_encode
#print axioms Yenc.Props.C89_encodeTo
#print axioms Yenc.Props.C89_encodeIncr
#print axioms Yenc.Props.C89_decode_plain
#print axioms Yenc.Props.C89_decode_dots
#print axioms Yenc.Props.C89_decodeTo
#print axioms Yenc.Props.C89_decodeIncr
#print axioms Yenc.Props.C89_decode_dots_torn
#print axioms Yenc.Props.C89_unchanged
#print axioms Yenc.Props.C92_crc32
#print axioms Yenc.Props.C92_crc32_init
#print axioms Yenc.Props.C92_unchanged
#print axioms Yenc.Props.C92_post
#print axioms Yenc.Props.C92_post_mismatch
#print axioms Yenc.Props.C91_encode
#print axioms Yenc.Props.C91_encodeTo
#print axioms Yenc.Props.C91_encodeIncr
#print axioms Yenc.Props.C91_encode_copy
#print axioms Yenc.Props.C91_steady
#print axioms Yenc.Props.C91_encode_short
#print axioms Yenc.Props.C91_encode_torn
#print axioms Yenc.Props.C92_post_parts
#print axioms Yenc.Props.C90_rounds
#print axioms Yenc.Props.C90_decode
#print axioms Yenc.Props.C90_decodeTo
#print axioms Yenc.Props.C90_decodeIncr
#print axioms Yenc.Props.C39_fix_eqMask
#print axioms Yenc.Props.C38_decodeChunk
#print axioms Yenc.Props.C38_decode_partial
#print axioms Yenc.Props.C38_plain_memory
#print axioms Yenc.Props.C38_end_memory
#print axioms Yenc.Props.C38_strip_memory
#print axioms Yenc.Props.C38_rvv_wide_false
#print axioms Yenc.Props.C38_strip_false
#print axioms Yenc.Props.C18_simd_decode_reads
#print axioms Yenc.Props.C18_x86_decodeChunk_reads
#print axioms Yenc.Props.C18_rvv_decodeChunk_reads
#print axioms Yenc.Props.C18_neon_decodeChunk_reads_partial
#print axioms Yenc.Props.C18_neon_overread_false
#print axioms Yenc.Props.C40_encode
#print axioms Yenc.Props.C40_encodeTo
#print axioms Yenc.Props.C40_memory
#print axioms Yenc.Props.C98_numbers
#print axioms Yenc.Props.C98_documented_false
#print axioms Yenc.Props.C98_max_string
#print axioms Yenc.Props.C98_min_string_false
#print axioms Yenc.Props.C98_bigint
#print axioms Yenc.Props.C67_encoder_executable
#print axioms Yenc.Props.C67_decoder_executable
#print axioms Yenc.Props.C67_crc_executable
#print axioms Yenc.Props.C67_encoder_selected_partial
#print axioms Yenc.Props.C67_decoder_selected
#print axioms Yenc.Props.C67_crc_selected
#print axioms Yenc.Props.C67_module_partial
#print axioms Yenc.Props.C67_tables_false
#print axioms Yenc.Props.C67_sse2_false
#print axioms Yenc.Props.C67_leaf7_false
#print axioms Yenc.Props.C67_arm
#print axioms Yenc.Props.C67_riscv_partial
#print axioms Yenc.Props.C85_received
#print axioms Yenc.Props.C85_resumed
#print axioms Yenc.Props.C80_stuffed_generic
#print axioms Yenc.Props.C80_stuffed_partial
#print axioms Yenc.Props.C80_article
#print axioms Yenc.Props.C80_article_parts
#print axioms Yenc.Props.C97_object
#print axioms Yenc.Props.C97_module
#print axioms Yenc.Props.C97_detached
#print axioms Yenc.Props.C97_detached_false
#print axioms Yenc.Props.C70_calls
#print axioms Yenc.Props.C70_race_free
#print axioms Yenc.Props.C70_once
#print axioms Yenc.Props.C70_progress
#print axioms Yenc.Props.C70_module_partial
#print axioms Yenc.Props.C70_reload_partial
#print axioms Yenc.Props.C106_crc
#print axioms Yenc.Props.C106_combine
#print axioms Yenc.Props.C106_count
#print axioms Yenc.Props.C106_decode
#print axioms Yenc.Props.C106_encode
#print axioms Yenc.Props.C106_encode_vector
#print axioms Yenc.Props.C106_incr
#print axioms Yenc.Props.C73_decode
#print axioms Yenc.Props.C73_decodeChunk
#print axioms Yenc.Props.C73_pieces
#print axioms Yenc.Props.C73_encode_conformant
#print axioms Yenc.Props.C73_round_trip
#print axioms Yenc.Props.C73_round_trip_nntp
#print axioms Yenc.Props.C73_round_trip_pieces
#print axioms Yenc.Props.C73_reads
#print axioms Yenc.Props.C73_decode_total
#print axioms Yenc.Props.C86_never_ends
#print axioms Yenc.Props.C86_hang_false
#print axioms Yenc.Props.C86_hang_intended_false
#print axioms Yenc.Props.C86_hang_short_false
#print axioms Yenc.Props.C86_short_result
#print axioms Yenc.Props.C86_not_reached_partial
#print axioms Yenc.Props.C102_encode
#print axioms Yenc.Props.C102_decode_plain
#print axioms Yenc.Props.C102_decode_dots
#print axioms Yenc.Props.C102_decodeChunk
#print axioms Yenc.Props.C102_vector_decode
#print axioms Yenc.Props.C102_vector_decode_rounds
#print axioms Yenc.Props.C102_vector_encode
#print axioms Yenc.Props.C102_vector_encode_x86
#print axioms Yenc.Props.C102_crc32
#print axioms Yenc.Props.C102_crc32_exact
