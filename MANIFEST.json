{
 "claims": [
  {
   "property": "C01",
   "status": "proved",
   "theorems": [
    "Yenc.Props.C01_round_trip"
   ],
   "note": ""
  },
  {
   "property": "C02",
   "status": "proved",
   "theorems": [
    "Yenc.Props.C02_round_trip_nntp",
    "Yenc.Props.C02_column_needed"
   ],
   "note": ""
  },
  {
   "property": "C03",
   "status": "proved",
   "theorems": [
    "Yenc.Props.C03_encode_reference"
   ],
   "note": ""
  },
  {
   "property": "C04",
   "status": "proved",
   "theorems": [
    "Yenc.Props.C04_safe_bytes"
   ],
   "note": ""
  },
  {
   "property": "C05",
   "status": "proved",
   "theorems": [
    "Yenc.Props.C05_line_starts"
   ],
   "note": ""
  },
  {
   "property": "C06",
   "status": "proved",
   "theorems": [
    "Yenc.Props.C06_line_ends"
   ],
   "note": ""
  },
  {
   "property": "C07",
   "status": "proved",
   "theorems": [
    "Yenc.Props.C07_line_lengths",
    "Yenc.Props.C07_empty"
   ],
   "note": ""
  },
  {
   "property": "C08",
   "status": "proved",
   "theorems": [
    "Yenc.Props.C08_never_terminator"
   ],
   "note": ""
  },
  {
   "property": "C09",
   "status": "proved",
   "theorems": [
    "Yenc.Props.C09_max_size"
   ],
   "note": ""
  },
  {
   "property": "C10",
   "status": "partial",
   "theorems": [
    "Yenc.Props.C10_min_size_false",
    "Yenc.Props.C10_min_size_partial"
   ],
   "note": "False as documented (C10_min_size_false gives a witness); the true bound is proved."
  },
  {
   "property": "C11",
   "status": "partial",
   "theorems": [
    "Yenc.Props.C11_encodeTo",
    "Yenc.Props.C11_never_ub_partial",
    "Yenc.Props.C11_never_ub_vector",
    "Yenc.Props.C11_never_ub_false"
   ],
   "note": "Full for line sizes up to 2147483641, and for all with vectorised encoders (C11_never_ub_vector); with the portable encoder the column overflows for larger ones (C11_never_ub_false)."
  },
  {
   "property": "C12",
   "status": "proved",
   "theorems": [
    "Yenc.Props.C12_max_size_accepted"
   ],
   "note": ""
  },
  {
   "property": "C13",
   "status": "proved",
   "theorems": [
    "Yenc.Props.C13_arguments",
    "Yenc.Props.C13_not_a_buffer"
   ],
   "note": ""
  },
  {
   "property": "C14",
   "status": "partial",
   "theorems": [
    "Yenc.Props.C14_incremental_false",
    "Yenc.Props.C14_incremental_partial",
    "Yenc.Props.C14_decodes",
    "Yenc.Props.C14_line_size_one_false",
    "Yenc.Props.C14_exact"
   ],
   "note": "False as coded at line ends (C14_incremental_false); C14_exact says for which pieces it holds, C14_decodes that any pieces decode to the data (line size 1 excepted, C14_line_size_one_false)."
  },
  {
   "property": "C15",
   "status": "partial",
   "theorems": [
    "Yenc.Props.C15_decode_plain",
    "Yenc.Props.C15_decode_strip_generic",
    "Yenc.Props.C15_decode_strip_partial",
    "Yenc.Props.C15_decode_strip_any_partial"
   ],
   "note": "Full for the portable decoder and for stripDots=false; with dot stripping on SIMD inputs ending in =CRLF are excluded (see C38)."
  },
  {
   "property": "C16",
   "status": "proved",
   "theorems": [
    "Yenc.Props.C16_decode_size",
    "Yenc.Props.C16_decodeTo"
   ],
   "note": ""
  },
  {
   "property": "C17",
   "status": "proved",
   "theorems": [
    "Yenc.Props.C17_decodeTo_in_place",
    "Yenc.Props.C17_decodeChunk_in_place",
    "Yenc.Props.C17_output_ahead_of_input_differs"
   ],
   "note": ""
  },
  {
   "property": "C18",
   "status": "partial",
   "theorems": [
    "Yenc.Props.C18_decode_no_ub",
    "Yenc.Props.C18_simd_decode_reads",
    "Yenc.Props.C18_x86_decodeChunk_reads",
    "Yenc.Props.C18_rvv_decodeChunk_reads",
    "Yenc.Props.C18_neon_decodeChunk_reads_partial",
    "Yenc.Props.C18_neon_overread_false"
   ],
   "note": "decode: full for every implementation. decodeChunk: full for the portable, x86 and RISC-V (128 and 256 bit vectors; for longer ones C73_reads) code; false for ARM NEON (C18_neon_overread_false), which stays within the aligned 16 bytes (C18_neon_decodeChunk_reads_partial)."
  },
  {
   "property": "C19",
   "status": "proved",
   "theorems": [
    "Yenc.Props.C19_chunk_independent"
   ],
   "note": ""
  },
  {
   "property": "C20",
   "status": "proved",
   "theorems": [
    "Yenc.Props.C20_end_detection"
   ],
   "note": ""
  },
  {
   "property": "C21",
   "status": "proved",
   "theorems": [
    "Yenc.Props.C21_read"
   ],
   "note": ""
  },
  {
   "property": "C22",
   "status": "proved",
   "theorems": [
    "Yenc.Props.C22_output"
   ],
   "note": ""
  },
  {
   "property": "C23",
   "status": "proved",
   "theorems": [
    "Yenc.Props.C23_state_round_trip",
    "Yenc.Props.C23_states_distinguished",
    "Yenc.Props.C23_ended_state_throws"
   ],
   "note": ""
  },
  {
   "property": "C24",
   "status": "partial",
   "theorems": [
    "Yenc.Props.C24_stuffing_undone_generic",
    "Yenc.Props.C24_stuffing_undone_partial"
   ],
   "note": "Full for the portable decoder; SIMD excludes texts ending in =CRLF (see C38)."
  },
  {
   "property": "C25",
   "status": "proved",
   "theorems": [
    "Yenc.Props.C25_crc32",
    "Yenc.Props.C25_crc32_unique"
   ],
   "note": ""
  },
  {
   "property": "C26",
   "status": "proved",
   "theorems": [
    "Yenc.Props.C26_crc32_incremental",
    "Yenc.Props.C26_crc32_pieces"
   ],
   "note": ""
  },
  {
   "property": "C27",
   "status": "proved",
   "theorems": [
    "Yenc.Props.C27_combine"
   ],
   "note": ""
  },
  {
   "property": "C28",
   "status": "proved",
   "theorems": [
    "Yenc.Props.C28_zeroes"
   ],
   "note": ""
  },
  {
   "property": "C29",
   "status": "proved",
   "theorems": [
    "Yenc.Props.C29_zeroes_negative"
   ],
   "note": ""
  },
  {
   "property": "C30",
   "status": "proved",
   "theorems": [
    "Yenc.Props.C30_multiply",
    "Yenc.Props.C30_multiply_field"
   ],
   "note": ""
  },
  {
   "property": "C31",
   "status": "proved",
   "theorems": [
    "Yenc.Props.C31_shift",
    "Yenc.Props.C31_shift_group"
   ],
   "note": ""
  },
  {
   "property": "C32",
   "status": "proved",
   "theorems": [
    "Yenc.Props.C32_combine_by_shift"
   ],
   "note": ""
  },
  {
   "property": "C33",
   "status": "partial",
   "theorems": [
    "Yenc.Props.C33_powmod",
    "Yenc.Props.C33_bytepow",
    "Yenc.Props.C33_bytepow_portable_false",
    "Yenc.Props.C33_bytepow_portable_partial",
    "Yenc.Props.C33_shift_portable"
   ],
   "note": "Full for GNU C and Visual C++; the branch of crc32_bytepow for other compilers is wrong from 2^61 on (C33_bytepow_portable_false), proved below."
  },
  {
   "property": "C34",
   "status": "partial",
   "theorems": [
    "Yenc.Props.C34_zeroes_truncates",
    "Yenc.Props.C34_zeroes_large_false"
   ],
   "note": "False as coded (C34_zeroes_large_false); holds for counts of magnitude below 2^31 (C28, C29)."
  },
  {
   "property": "C35",
   "status": "proved",
   "theorems": [
    "Yenc.Props.C35_burst",
    "Yenc.Props.C35_burst_bytes"
   ],
   "note": ""
  },
  {
   "property": "C36",
   "status": "proved",
   "theorems": [
    "Yenc.Props.C36_crc_buffers"
   ],
   "note": ""
  },
  {
   "property": "C37",
   "status": "proved",
   "theorems": [
    "Yenc.Props.C37_crc32_address"
   ],
   "note": ""
  },
  {
   "property": "C38",
   "status": "partial",
   "theorems": [
    "Yenc.Props.C38_decodeChunk",
    "Yenc.Props.C38_decode_partial",
    "Yenc.Props.C38_plain_memory",
    "Yenc.Props.C38_end_memory",
    "Yenc.Props.C38_strip_memory",
    "Yenc.Props.C38_rvv_wide_false",
    "Yenc.Props.C38_strip_false"
   ],
   "note": "False as stated for dot stripping (C38_strip_false); C38_strip_memory says exactly when the byte is lost. Full for decode without dot stripping and for decodeChunk. Implementations: all x86 kernels (SSE2 to VBMI2), ARM NEON (AArch64 and ARMv7), RISC-V with 128 and 256 bit vectors. With longer RISC-V vectors it is false (C38_rvv_wide_false); C73 says what holds then."
  },
  {
   "property": "C39",
   "status": "proved",
   "theorems": [
    "Yenc.Props.C39_fix_eqMask"
   ],
   "note": ""
  },
  {
   "property": "C40",
   "status": "proved",
   "theorems": [
    "Yenc.Props.C40_encode",
    "Yenc.Props.C40_encodeTo",
    "Yenc.Props.C40_memory"
   ],
   "note": "All kernels: x86 (SSE2 to VBMI2), ARM NEON (AArch64 and ARMv7), RISC-V vectors of any length. Line sizes up to 2147483641, see C74."
  },
  {
   "property": "C41",
   "status": "proved",
   "theorems": [
    "Yenc.Props.C41_functions",
    "Yenc.Props.C41_api",
    "Yenc.Props.C41_long"
   ],
   "note": "x86 (PCLMULQDQ, AVX512VL, VPCLMULQDQ), ARMv8 CRC, PMULL, RISC-V Zbc/Zbkc, 64 and 32 bits; crcutil, the fallback on x86, is among them (C66)."
  },
  {
   "property": "C42",
   "status": "proved",
   "theorems": [
    "Yenc.Props.C42_multi_post_parts",
    "Yenc.Props.C42_multi_post_single",
    "Yenc.Props.C42_ranges"
   ],
   "note": ""
  },
  {
   "property": "C43",
   "status": "proved",
   "theorems": [
    "Yenc.Props.C43_multi_post_crcs",
    "Yenc.Props.C43_running_crc"
   ],
   "note": ""
  },
  {
   "property": "C44",
   "status": "proved",
   "theorems": [
    "Yenc.Props.C44_multi_post_protocol",
    "Yenc.Props.C44_multi_post_complete",
    "Yenc.Props.C44_single_post_protocol"
   ],
   "note": ""
  },
  {
   "property": "C45",
   "status": "partial",
   "theorems": [
    "Yenc.Props.C45_single",
    "Yenc.Props.C45_parts",
    "Yenc.Props.C45_empty_part_false"
   ],
   "note": "Full for single posts and for non-empty pieces; false for empty pieces (C45_empty_part_false). Safe names: at most 256 units, well-formed UTF-16, no CR LF, not ending in white space."
  },
  {
   "property": "C46",
   "status": "proved",
   "theorems": [
    "Yenc.Props.C46_from_post_total"
   ],
   "note": "For text conversions that keep leading ASCII, as the default does; other values of the encoding property: C93."
  },
  {
   "property": "C47",
   "status": "partial",
   "theorems": [
    "Yenc.Props.C47_exact",
    "Yenc.Props.C47_exact_parts",
    "Yenc.Props.C47_header_injection_false",
    "Yenc.Props.C47_sanitiser_incomplete",
    "Yenc.Props.C47_one_line_partial"
   ],
   "note": "False as coded (C47_header_injection_false); C47_exact and C47_exact_parts say for which names it holds."
  },
  {
   "property": "C48",
   "status": "partial",
   "theorems": [
    "Yenc.Props.C48_post_false"
   ],
   "note": "False as coded: post always throws (C48_post_false)."
  },
  {
   "property": "C49",
   "status": "proved",
   "theorems": [
    "Yenc.Props.C49_decodeTo_short"
   ],
   "note": "As coded: returns 0 without writing; README says it throws."
  },
  {
   "property": "C50",
   "status": "proved",
   "theorems": [
    "Yenc.Props.C50_injective"
   ],
   "note": ""
  },
  {
   "property": "C51",
   "status": "proved",
   "theorems": [
    "Yenc.Props.C51_layout_independent"
   ],
   "note": ""
  },
  {
   "property": "C52",
   "status": "proved",
   "theorems": [
    "Yenc.Props.C52_readme_order",
    "Yenc.Props.C52_output_buffer"
   ],
   "note": ""
  },
  {
   "property": "C53",
   "status": "partial",
   "theorems": [
    "Yenc.Props.C53_encodeTo_exact",
    "Yenc.Props.C53_decodeTo_exact",
    "Yenc.Props.C53_decodeChunk_exact",
    "Yenc.Props.C53_read_exact",
    "Yenc.Props.C53_count_truncated",
    "Yenc.Props.C53_count_exact"
   ],
   "note": "False for counts of 2^31 and more (C53_count_truncated); exact below, for every entry point and all arguments."
  },
  {
   "property": "C54",
   "status": "proved",
   "theorems": [
    "Yenc.Props.C54_two_bits"
   ],
   "note": ""
  },
  {
   "property": "C55",
   "status": "proved",
   "theorems": [
    "Yenc.Props.C55_affine"
   ],
   "note": ""
  },
  {
   "property": "C56",
   "status": "proved",
   "theorems": [
    "Yenc.Props.C56_init_bijective"
   ],
   "note": ""
  },
  {
   "property": "C57",
   "status": "proved",
   "theorems": [
    "Yenc.Props.C57_shift_enumerates"
   ],
   "note": ""
  },
  {
   "property": "C58",
   "status": "proved",
   "theorems": [
    "Yenc.Props.C58_bad_crc_arguments"
   ],
   "note": ""
  },
  {
   "property": "C59",
   "status": "proved",
   "theorems": [
    "Yenc.Props.C59_powers"
   ],
   "note": ""
  },
  {
   "property": "C60",
   "status": "proved",
   "theorems": [
    "Yenc.Props.C60_from_post_sound"
   ],
   "note": ""
  },
  {
   "property": "C61",
   "status": "partial",
   "theorems": [
    "Yenc.Props.C61_warnings_exact",
    "Yenc.Props.C61_size_exact",
    "Yenc.Props.C61_proto_skips_check_false",
    "Yenc.Props.C61_empty",
    "Yenc.Props.C61_size_digits"
   ],
   "note": "Exact as stated in terms of the props object; a =y__proto__ line can make it inherit a part property (C61_proto_skips_check_false)."
  },
  {
   "property": "C62",
   "status": "partial",
   "theorems": [
    "Yenc.Props.C62_long_false"
   ],
   "note": "False as coded (C62_long_false); exact when the length fits long (C41_long)."
  },
  {
   "property": "C63",
   "status": "proved",
   "theorems": [
    "Yenc.Props.C63_properties",
    "Yenc.Props.C63_unique",
    "Yenc.Props.C63_written",
    "Yenc.Props.C63_written_name"
   ],
   "note": "Lines, pieces and values are described in Spec/Header.lean; C63_unique: the description determines the result. __proto__ as a tag or key is left out."
  },
  {
   "property": "C64",
   "status": "partial",
   "theorems": [
    "Yenc.Props.C64_line_warnings",
    "Yenc.Props.C64_value_warnings",
    "Yenc.Props.C64_consistency_warnings",
    "Yenc.Props.C64_codes",
    "Yenc.Props.C64_numbers",
    "Yenc.Props.C64_constructor_false",
    "Yenc.Props.C64_tag_false",
    "Yenc.Props.C64_large_false"
   ],
   "note": "Exact except that names and tags of members of Object.prototype are reported as repeated on first use (C64_constructor_false, C64_tag_false; included in the exact condition for properties, excluded for tags)."
  },
  {
   "property": "C65",
   "status": "proved",
   "theorems": [
    "Yenc.Props.C65_no_start",
    "Yenc.Props.C65_no_end",
    "Yenc.Props.C65_required"
   ],
   "note": "For text conversions that keep leading ASCII, as UTF-8 does (otherwise see C93)."
  },
  {
   "property": "C66",
   "status": "proved",
   "theorems": [
    "Yenc.Props.C66_crc",
    "Yenc.Props.C66_portable",
    "Yenc.Props.C66_start"
   ],
   "note": "The 64-bit instance with 64-bit tables, which node-yencode creates. Not modelled: rolling CRCs, the concatenation functions, the 128-bit and SSE4.2 instances. Computing the address 63 below the end of short data is taken not to wrap around."
  },
  {
   "property": "C67",
   "status": "partial",
   "theorems": [
    "Yenc.Props.C67_encoder_executable",
    "Yenc.Props.C67_decoder_executable",
    "Yenc.Props.C67_crc_executable",
    "Yenc.Props.C67_encoder_selected_partial",
    "Yenc.Props.C67_decoder_selected",
    "Yenc.Props.C67_crc_selected",
    "Yenc.Props.C67_module_partial",
    "Yenc.Props.C67_tables_false",
    "Yenc.Props.C67_sse2_false",
    "Yenc.Props.C67_leaf7_false",
    "Yenc.Props.C67_arm",
    "Yenc.Props.C67_riscv_partial"
   ],
   "note": "Executability is full for processors with SSE2, which ia32 builds use without asking (C67_sse2_false). Tables are right except in native builds with disable_avx256 for processors with AVX2 but not LZCNT (C67_tables_false). Coherent includes that leaf 7 of CPUID exists on processors with AVX, which the code does not check (C67_leaf7_false). RISC-V decoder: vectors of 128 and 256 bits (see C38; C73 and C86 for longer ones)."
  },
  {
   "property": "C68",
   "status": "partial",
   "theorems": [
    "Yenc.Props.C68_encode_partial",
    "Yenc.Props.C68_never_ub_partial",
    "Yenc.Props.C68_64",
    "Yenc.Props.C68_32_partial",
    "Yenc.Props.C68_32_false",
    "Yenc.Props.C68_combine_partial",
    "Yenc.Props.C68_combine_32_false"
   ],
   "note": "Full with 64-bit size_t (line sizes up to 2147483641, see C74); with 32 bits for sizes that do not wrap. False beyond: C68_32_false, C68_combine_32_false."
  },
  {
   "property": "C69",
   "status": "proved",
   "theorems": [
    "Yenc.Props.C69_exact",
    "Yenc.Props.C69_integral",
    "Yenc.Props.C69_ratio_range",
    "Yenc.Props.C69_ratio"
   ],
   "note": "Lengths up to 2^50 (2^53 for sizes in posts); beyond 2^53 sizes in posts are rounded (C64_large_false)."
  },
  {
   "property": "C70",
   "status": "partial",
   "theorems": [
    "Yenc.Props.C70_calls",
    "Yenc.Props.C70_race_free",
    "Yenc.Props.C70_once",
    "Yenc.Props.C70_progress",
    "Yenc.Props.C70_module_partial",
    "Yenc.Props.C70_reload_partial"
   ],
   "note": "Schedules: full. What calls return on x86 is partial in the same way as C67. uv_once is taken from its documentation; Buffers shared between threads: C89."
  },
  {
   "property": "C71",
   "status": "proved",
   "theorems": [
    "Yenc.Props.C71_find",
    "Yenc.Props.C71_find_last",
    "Yenc.Props.C71_same",
    "Yenc.Props.C71_large_false"
   ],
   "note": "False from position 2^31 on (C71_large_false), which Buffers of the Node.js versions in question do not reach."
  },
  {
   "property": "C72",
   "status": "proved",
   "theorems": [
    "Yenc.Props.C72_before",
    "Yenc.Props.C72_after",
    "Yenc.Props.C72_newline",
    "Yenc.Props.C72_embedded",
    "Yenc.Props.C72_article",
    "Yenc.Props.C72_article_parts",
    "Yenc.Props.C72_two_posts_false"
   ],
   "note": "Several posts in one text are excluded: the last end marker counts (C72_two_posts_false). Names and sizes as in C45."
  },
  {
   "property": "C73",
   "status": "proved",
   "theorems": [
    "Yenc.Props.C73_decode",
    "Yenc.Props.C73_decodeChunk",
    "Yenc.Props.C73_pieces",
    "Yenc.Props.C73_encode_conformant",
    "Yenc.Props.C73_round_trip",
    "Yenc.Props.C73_round_trip_nntp",
    "Yenc.Props.C73_round_trip_pieces",
    "Yenc.Props.C73_reads",
    "Yenc.Props.C73_decode_total"
   ],
   "note": "Vector lengths are any positive multiples of 8 bytes. On other streams the result is wrong with vectors of more than 256 bits (C38_rvv_wide_false). The loop at decoder_rvv.cc:230-234, not entered on conformant streams, may not end on others (C86)."
  },
  {
   "property": "C74",
   "status": "partial",
   "theorems": [
    "Yenc.Props.C74_vector",
    "Yenc.Props.C74_portable",
    "Yenc.Props.C74_overflow_false",
    "Yenc.Props.C74_encode_partial"
   ],
   "note": "Full for vectorised encoders (C74_vector). For the portable one false for the six largest line sizes (C74_overflow_false); C74_portable says exactly for which it holds."
  },
  {
   "property": "C75",
   "status": "partial",
   "theorems": [
    "Yenc.Props.C75_encode_partial",
    "Yenc.Props.C75_encode_x86",
    "Yenc.Props.C75_decode_partial",
    "Yenc.Props.C75_encode_false",
    "Yenc.Props.C75_decode_false"
   ],
   "note": "Full for Buffers below 2 GiB, and for the x86 encoders with line sizes from 16 on at every length (C75_encode_x86). False otherwise: C75_encode_false, C75_decode_false."
  },
  {
   "property": "C76",
   "status": "partial",
   "theorems": [
    "Yenc.Props.C76_retry_false",
    "Yenc.Props.C76_gap_witness",
    "Yenc.Props.C76_crc_witness",
    "Yenc.Props.C76_refusal_final",
    "Yenc.Props.C76_part_numbers",
    "Yenc.Props.C76_single_retry_partial"
   ],
   "note": "False for multi-part encoders (C76_retry_false, C76_gap_witness, C76_crc_witness); C76_refusal_final and C76_part_numbers say for every history what a refused call costs. Full for single-part encoders (C76_single_retry_partial)."
  },
  {
   "property": "C77",
   "status": "partial",
   "theorems": [
    "Yenc.Props.C77_text_round_trip_partial",
    "Yenc.Props.C77_text_parts_partial",
    "Yenc.Props.C77_size_in_bytes",
    "Yenc.Props.C77_length_as_size",
    "Yenc.Props.C77_lone_surrogate_false",
    "Yenc.Props.C77_cut_character_false",
    "Yenc.Props.C77_unusable_data",
    "Yenc.Props.C77_array"
   ],
   "note": "Full for valid text cut between characters (C77_text_round_trip_partial, C77_text_parts_partial), for sizes (C77_size_in_bytes, C77_length_as_size), arrays and unusable data. False for lone surrogates and for pieces cut inside a character."
  },
  {
   "property": "C78",
   "status": "proved",
   "theorems": [
    "Yenc.Props.C78_damage_local",
    "Yenc.Props.C78_tight",
    "Yenc.Props.C78_chunk",
    "Yenc.Props.C78_chunk_false"
   ],
   "note": "For decodeChunk only while it does not report the end of the data (C78_chunk); C78_chunk_false shows that this is needed. The bounds are the best possible (C78_tight)."
  },
  {
   "property": "C79",
   "status": "proved",
   "theorems": [
    "Yenc.Props.C79_single",
    "Yenc.Props.C79_keyword_needed",
    "Yenc.Props.C79_parts",
    "Yenc.Props.C79_marker_single",
    "Yenc.Props.C79_marker_parts",
    "Yenc.Props.C79_insert_false"
   ],
   "note": "Sizes below 2^53 as in C45. If the damage makes the data section start with =y, the line is taken for a header line (C79_keyword_needed); C79_marker_single and C79_marker_parts are about overwritten bytes, since inserted lines can go unreported (C79_insert_false)."
  },
  {
   "property": "C80",
   "status": "partial",
   "theorems": [
    "Yenc.Props.C80_stuffed_generic",
    "Yenc.Props.C80_stuffed_partial",
    "Yenc.Props.C80_article",
    "Yenc.Props.C80_article_parts"
   ],
   "note": "Full for the portable decoder (C80_stuffed_generic) and, with every decoder, for posts made by the encoder (C80_article, C80_article_parts). For other texts and decoders posts whose data end in an escaped line break are excluded (C80_stuffed_partial, cf. C15)."
  },
  {
   "property": "C81",
   "status": "proved",
   "theorems": [
    "Yenc.Props.C81_combined_crc",
    "Yenc.Props.C81_last_part_crc"
   ],
   "note": "Pieces below 2^63 bytes. C81_last_part_crc for posts made by the encoder, with the limits of C45."
  },
  {
   "property": "C82",
   "status": "proved",
   "theorems": [
    "Yenc.Props.C82_any_order"
   ],
   "note": "With the limits of C45 (safe names, non-empty parts, size below 2^53). The loop writing the parts is the caller's and is part of the statement."
  },
  {
   "property": "C83",
   "status": "proved",
   "theorems": [
    "Yenc.Props.C83_expected",
    "Yenc.Props.C83_readme_ratio",
    "Yenc.Props.C83_tail_1k",
    "Yenc.Props.C83_tail_128k",
    "Yenc.Props.C83_tail"
   ],
   "note": "The probabilities are upper bounds obtained by an exponential potential; they confirm the orders of magnitude stated in the README, not its digits. Expected values for line sizes 1 and 2, where a byte can both start and end a line, are bounded from above only in the lemma Ratio.mean_upper."
  },
  {
   "property": "C84",
   "status": "partial",
   "theorems": [
    "Yenc.Props.C84_calls",
    "Yenc.Props.C84_no_ub",
    "Yenc.Props.C84_no_leak",
    "Yenc.Props.C84_all_released",
    "Yenc.Props.C84_throw_unchanged",
    "Yenc.Props.C84_refused_false",
    "Yenc.Props.C84_refused_shrink_false",
    "Yenc.Props.C84_detects",
    "Yenc.Props.C84_reported"
   ],
   "note": "Full when the C library grants memory. False when it refuses: the results of malloc and realloc are not checked (C84_refused_false, C84_refused_shrink_false)."
  },
  {
   "property": "C85",
   "status": "proved",
   "theorems": [
    "Yenc.Props.C85_received",
    "Yenc.Props.C85_resumed"
   ],
   "note": "Pieces below 2 GiB (the limit of C75). The loop that passes the pieces on is the caller's and is part of the statement (receive)."
  },
  {
   "property": "C86",
   "status": "partial",
   "theorems": [
    "Yenc.Props.C86_never_ends",
    "Yenc.Props.C86_hang_false",
    "Yenc.Props.C86_hang_intended_false",
    "Yenc.Props.C86_hang_short_false",
    "Yenc.Props.C86_short_result",
    "Yenc.Props.C86_not_reached_partial"
   ],
   "note": "False for registers of 512 bits and more (C86_hang_false, C86_hang_intended_false, C86_hang_short_false; C86_never_ends is the general reason). Full for up to 256 bits and for conformant texts (C86_not_reached_partial, C73)."
  },
  {
   "property": "C87",
   "status": "proved",
   "theorems": [
    "Yenc.Props.C87_patch",
    "Yenc.Props.C87_uniform",
    "Yenc.Props.C87_unnoticed"
   ],
   "note": "Counts are of functions from positions to bytes, all equally likely; says nothing about errors that are not."
  },
  {
   "property": "C88",
   "status": "proved",
   "theorems": [
    "Yenc.Props.C88_three_bits",
    "Yenc.Props.C88_short",
    "Yenc.Props.C88_long_false"
   ],
   "note": "With the exact bound (C88_long_false is the converse for longer data). The computation (Lemmas/CrcThree.lean) is done by the kernel on numbers of 91669 bits, for every distance of two of the bits."
  },
  {
   "property": "C89",
   "status": "proved",
   "theorems": [
    "Yenc.Props.C89_encode",
    "Yenc.Props.C89_encodeTo",
    "Yenc.Props.C89_encodeIncr",
    "Yenc.Props.C89_decode_plain",
    "Yenc.Props.C89_decode_dots",
    "Yenc.Props.C89_decodeTo",
    "Yenc.Props.C89_decodeIncr",
    "Yenc.Props.C89_decode_dots_torn",
    "Yenc.Props.C89_unchanged"
   ],
   "note": "Portable implementation; one read for each read of the source text, the values of which are arbitrary. The vectorised decoders are C90, the vectorised encoders C91, crc32 C92. C89_unchanged ties the model to the ones the other properties use; C89_decode_dots_torn shows that the dot-stripping decoder may give what no copy of the data gives."
  },
  {
   "property": "C90",
   "status": "proved",
   "theorems": [
    "Yenc.Props.C90_rounds",
    "Yenc.Props.C90_decode",
    "Yenc.Props.C90_decodeTo",
    "Yenc.Props.C90_decodeIncr"
   ],
   "note": "What a round with disagreeing loads does is over-approximated (any masks, any data); that the over-approximation contains the rounds of the kernels on any bytes is C90_rounds, that it contains those with disagreeing loads is by inspection: each branch of the rounds ends in one of the three forms whatever the registers contain."
  },
  {
   "property": "C91",
   "status": "proved",
   "theorems": [
    "Yenc.Props.C91_encode",
    "Yenc.Props.C91_encodeTo",
    "Yenc.Props.C91_encodeIncr",
    "Yenc.Props.C91_encode_copy",
    "Yenc.Props.C91_steady",
    "Yenc.Props.C91_encode_short",
    "Yenc.Props.C91_encode_torn"
   ],
   "note": "A round whose loads disagree is over-approximated on x86: it has the lengths and offsets of the round for some bytes and stores anything (by inspection, see Model/SharedEnc.lean). C91_encode_short and C91_encode_torn show that the exceptions in the statement do occur."
  },
  {
   "property": "C92",
   "status": "proved",
   "theorems": [
    "Yenc.Props.C92_crc32",
    "Yenc.Props.C92_crc32_init",
    "Yenc.Props.C92_unchanged",
    "Yenc.Props.C92_post",
    "Yenc.Props.C92_post_mismatch",
    "Yenc.Props.C92_post_parts"
   ],
   "note": "Each load of the source text is one load, made of a read of each of its bytes, so a load need not be atomic. C92_post_mismatch shows that the checksum of a post need not match its data. In C92_post_parts each call has its own memory."
  },
  {
   "property": "C93",
   "status": "proved",
   "theorems": [
    "Yenc.Props.C93_total",
    "Yenc.Props.C93_same_function",
    "Yenc.Props.C93_name",
    "Yenc.Props.C93_ascii_name",
    "Yenc.Props.C93_name_false",
    "Yenc.Props.C93_utf16",
    "Yenc.Props.C93_utf16_own",
    "Yenc.Props.C93_utf16_false",
    "Yenc.Props.C93_hex"
   ],
   "note": "The settings base64 and base64url are left out. indexOf and lastIndexOf with an encoding are modelled after the documentation and source of Node.js."
  },
  {
   "property": "C94",
   "status": "proved",
   "theorems": [
    "Yenc.Props.C94_two_bytes",
    "Yenc.Props.C94_short",
    "Yenc.Props.C94_long_false"
   ],
   "note": "With the exact bound (C94_long_false is the converse for longer data). The kernel checks the discrete logarithms of the 255 bytes and their differences (Lemmas/CrcTwo.lean)."
  },
  {
   "property": "C95",
   "status": "proved",
   "theorems": [
    "Yenc.Props.C95_four_bits",
    "Yenc.Props.C95_short",
    "Yenc.Props.C95_long_false"
   ],
   "note": "With the exact bound (C95_long_false is the converse for longer data). The kernel checks the logarithms of the 3005 sums 1 + x^a and the gaps between them (Lemmas/CrcFour.lean)."
  },
  {
   "property": "C96",
   "status": "partial",
   "theorems": [
    "Yenc.Props.C96_same",
    "Yenc.Props.C96_parts",
    "Yenc.Props.C96_bytes",
    "Yenc.Props.C96_single",
    "Yenc.Props.C96_header_false",
    "Yenc.Props.C96_line_false",
    "Yenc.Props.C96_line_wraps_false",
    "Yenc.Props.C96_line_negative"
   ],
   "note": "Proved for size and parts (C96_same, C96_parts, C96_bytes, C96_single) and for line sizes below 2^31 - 6. False as coded for other line sizes (C96_line_false: undefined behaviour for strings; C96_line_wraps_false) and for the text of the header (C96_header_false)."
  },
  {
   "property": "C97",
   "status": "partial",
   "theorems": [
    "Yenc.Props.C97_object",
    "Yenc.Props.C97_module",
    "Yenc.Props.C97_detached",
    "Yenc.Props.C97_detached_false"
   ],
   "note": "False as coded: C97_detached says what the function taken out of the module does, C97_detached_false that it throws on every post of the library. C97_object and C97_module say on what the result depends when it is called on an object."
  },
  {
   "property": "C98",
   "status": "partial",
   "theorems": [
    "Yenc.Props.C98_numbers",
    "Yenc.Props.C98_documented_false",
    "Yenc.Props.C98_max_string",
    "Yenc.Props.C98_min_string_false",
    "Yenc.Props.C98_bigint"
   ],
   "note": "False as coded: C98_documented_false (the difference is 66, not 2), C98_min_string_false (a string). C98_numbers, C98_max_string and C98_bigint say what the functions do."
  },
  {
   "property": "C99",
   "status": "proved",
   "theorems": [
    "Yenc.Props.C99_recipe",
    "Yenc.Props.C99_pieces",
    "Yenc.Props.C99_pieces_post",
    "Yenc.Props.C99_break_needed"
   ],
   "note": "The loop over the pieces is the caller's and is part of the statement (addPieces). C99_break_needed shows why the caller has to write the line break where a line is full."
  },
  {
   "property": "C100",
   "status": "partial",
   "theorems": [
    "Yenc.Props.C100_match",
    "Yenc.Props.C100_number",
    "Yenc.Props.C100_hex",
    "Yenc.Props.C100_same",
    "Yenc.Props.C100_work_partial",
    "Yenc.Props.C100_own_single",
    "Yenc.Props.C100_own_parts",
    "Yenc.Props.C100_letters",
    "Yenc.Props.C100_linear_false"
   ],
   "note": "The linear bound is false (C100_linear_false, with the exact work for a family of posts in C100_letters); the square of the length is proved as an upper bound, and the exact, constant work on the posts of the library itself (C100_own_single, C100_own_parts). The work is that of the matching algorithm of ECMA-262; an engine may do less, or the same faster."
  },
  {
   "property": "C101",
   "status": "proved",
   "theorems": [
    "Yenc.Props.C101_decode",
    "Yenc.Props.C101_decode_stuffed",
    "Yenc.Props.C101_encode",
    "Yenc.Props.C101_received",
    "Yenc.Props.C101_keyword_false",
    "Yenc.Props.C101_section",
    "Yenc.Props.C101_section_stuffed",
    "Yenc.Props.C101_article",
    "Yenc.Props.C101_article_part"
   ],
   "note": "Texts in which a line starts with =y (an escaped byte 0x0f there) are excluded for decodeChunk and, on the first line, for from_post, as the yEnc draft reserves them; C101_keyword_false shows that the condition is needed."
  },
  {
   "property": "C102",
   "status": "proved",
   "theorems": [
    "Yenc.Props.C102_encode",
    "Yenc.Props.C102_decode_plain",
    "Yenc.Props.C102_decode_dots",
    "Yenc.Props.C102_decodeChunk",
    "Yenc.Props.C102_vector_decode",
    "Yenc.Props.C102_vector_decode_rounds",
    "Yenc.Props.C102_vector_encode",
    "Yenc.Props.C102_vector_encode_x86",
    "Yenc.Props.C102_crc32",
    "Yenc.Props.C102_crc32_exact"
   ],
   "note": "Work is the number of reads of the input, in the model of calls on data that changes (C89-C92). The loads inside a round of the vectorised decoders are not counted one by one (their number is fixed), only the rounds."
  },
  {
   "property": "C103",
   "status": "proved",
   "theorems": [
    "Yenc.Props.C103_largest",
    "Yenc.Props.C103_smallest",
    "Yenc.Props.C103_maxSize_even",
    "Yenc.Props.C103_maxSize_odd"
   ],
   "note": "From C03 and the reference encoder. The first bytes of lines (dots, tabs, spaces) do not matter for the extremes."
  },
  {
   "property": "C104",
   "status": "proved",
   "theorems": [
    "Yenc.Props.C104_codes",
    "Yenc.Props.C104_quotes",
    "Yenc.Props.C104_unique",
    "Yenc.Props.C104_table",
    "Yenc.Props.C104_errors"
   ],
   "note": "C104_codes ties the model with messages to the one without, which all other theorems are about. A line whose tag is the name of something every object has (toString, ...) always counts as repeated, and a line =y__proto__ makes the names of its properties count as seen; the specification says so (SeenTags)."
  },
  {
   "property": "C105",
   "status": "proved",
   "theorems": [
    "Yenc.Props.C105_assembled",
    "Yenc.Props.C105_complete",
    "Yenc.Props.C105_article",
    "Yenc.Props.C105_download"
   ],
   "note": "The loop that writes the data is the caller's and is part of the statement (assemble, as in C82). C82 is about the library's own posts."
  },
  {
   "property": "C106",
   "status": "proved",
   "theorems": [
    "Yenc.Props.C106_crc",
    "Yenc.Props.C106_combine",
    "Yenc.Props.C106_count",
    "Yenc.Props.C106_decode",
    "Yenc.Props.C106_encode",
    "Yenc.Props.C106_encode_vector",
    "Yenc.Props.C106_incr"
   ],
   "note": "For the unchecked casts of Node 8 and later (yencode.cc:56-57). The six largest line sizes with the scalar encoder are C11_never_ub_false. encodeIncr with an output and a line size below 128 can write past the output: encodeIncr_destination_overrun."
  },
  {
   "property": "C107",
   "status": "proved",
   "theorems": [
    "Yenc.Props.C107_converted",
    "Yenc.Props.C107_incr",
    "Yenc.Props.C107_same",
    "Yenc.Props.C107_undefined",
    "Yenc.Props.C107_defined",
    "Yenc.Props.C107_encode_defined",
    "Yenc.Props.C107_incr_defined"
   ],
   "note": "Conversions are part of the argument (an integer or none, a Boolean); that a conversion running JavaScript changes the Buffers meanwhile is not modelled. decodeIncr is always given a Number by index.js and is not included."
  },
  {
   "property": "C108",
   "status": "proved",
   "theorems": [
    "Yenc.Props.C108_same",
    "Yenc.Props.C108_unusable_data",
    "Yenc.Props.C108_number_single",
    "Yenc.Props.C108_parts",
    "Yenc.Props.C108_depends_on_arguments_false"
   ],
   "note": "That the post only depends on the arguments is refuted by C108_depends_on_arguments_false. Numbers are non-negative integers; fractions, negative numbers and allocation failures are not modelled. The native calls get the arguments they get on later versions, so C107_same applies to them."
  },
  {
   "property": "C109",
   "status": "proved",
   "theorems": [
    "Yenc.Props.C109_encode",
    "Yenc.Props.C109_incr",
    "Yenc.Props.C109_empty",
    "Yenc.Props.C109_crc",
    "Yenc.Props.C109_defined",
    "Yenc.Props.C109_on_entry_false"
   ],
   "note": "C109_on_entry_false refutes that encode uses the data as on entry. Different Buffers are taken not to share memory. encodeIncr with an output too small for short lines is undefined anyway (C106_incr)."
  },
  {
   "property": "C110",
   "status": "proved",
   "theorems": [
    "Yenc.Props.C110_five_bits",
    "Yenc.Props.C110_short",
    "Yenc.Props.C110_long_false"
   ],
   "note": "C110_long_false shows that the bound is exact."
  },
  {
   "property": "C111",
   "status": "proved",
   "theorems": [
    "Yenc.Props.C111_six_bits",
    "Yenc.Props.C111_short",
    "Yenc.Props.C111_long_false"
   ],
   "note": "C111_long_false shows that the bound is exact."
  }
 ]
}