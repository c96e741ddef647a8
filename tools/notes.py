NOTES = {
 'C10': ('partial', 'False as documented (C10_min_size_false gives a witness); the true bound is proved.'),
 'C11': ('partial', 'Full for line sizes up to 2147483641, and for all with vectorised encoders (C11_never_ub_vector); with the portable encoder the column overflows for larger ones (C11_never_ub_false).'),
 'C14': ('partial', 'False as coded at line ends (C14_incremental_false); C14_exact says for which pieces it holds, C14_decodes that any pieces decode to the data (line size 1 excepted, C14_line_size_one_false).'),
 'C15': ('partial', 'Full for the portable decoder and for stripDots=false; with dot stripping on SIMD inputs ending in =CRLF are excluded (see C38).'),
 'C24': ('partial', 'Full for the portable decoder; SIMD excludes texts ending in =CRLF (see C38).'),
 'C49': ('proved', 'As coded: returns 0 without writing; README says it throws.'),
 'C53': ('partial', 'False for counts of 2^31 and more (C53_count_truncated); exact below, for every entry point and all arguments.'),
 'C33': ('partial', 'Full for GNU C and Visual C++; the branch of crc32_bytepow for other compilers is wrong from 2^61 on (C33_bytepow_portable_false), proved below.'),
 'C34': ('partial', 'False as coded (C34_zeroes_large_false); holds for counts of magnitude below 2^31 (C28, C29).'),
 'C47': ('partial', 'False as coded (C47_header_injection_false); C47_exact and C47_exact_parts say for which names it holds.'),
 'C48': ('partial', 'False as coded: post always throws (C48_post_false).'),
 'C45': ('partial', 'Full for single posts and for non-empty pieces; false for empty pieces (C45_empty_part_false). Safe names: at most 256 units, well-formed UTF-16, no CR LF, not ending in white space.'),
 'C46': ('proved', 'For text conversions that keep leading ASCII, as the default does; other values of the encoding property: C93.'),
 'C61': ('partial', 'Exact as stated in terms of the props object; a =y__proto__ line can make it inherit a part property (C61_proto_skips_check_false).'),
 'C38': ('partial', 'False as stated for dot stripping (C38_strip_false); C38_strip_memory says exactly when the byte is lost. Full for decode without dot stripping and for decodeChunk. Implementations: all x86 kernels (SSE2 to VBMI2), ARM NEON (AArch64 and ARMv7), RISC-V with 128 and 256 bit vectors. With longer RISC-V vectors it is false (C38_rvv_wide_false); C73 says what holds then.'),
 'C18': ('partial', 'decode: full for every implementation. decodeChunk: full for the portable, x86 and RISC-V (128 and 256 bit vectors; for longer ones C73_reads) code; false for ARM NEON (C18_neon_overread_false), which stays within the aligned 16 bytes (C18_neon_decodeChunk_reads_partial).'),
 'C40': ('proved', 'All kernels: x86 (SSE2 to VBMI2), ARM NEON (AArch64 and ARMv7), RISC-V vectors of any length. Line sizes up to 2147483641, see C74.'),
 'C41': ('proved', 'x86 (PCLMULQDQ, AVX512VL, VPCLMULQDQ), ARMv8 CRC, PMULL, RISC-V Zbc/Zbkc, 64 and 32 bits; crcutil, the fallback on x86, is among them (C66).'),
 'C62': ('partial', 'False as coded (C62_long_false); exact when the length fits long (C41_long).'),
 'C63': ('proved', 'Lines, pieces and values are described in Spec/Header.lean; C63_unique: the description determines the result. __proto__ as a tag or key is left out.'),
 'C64': ('partial', 'Exact except that names and tags of members of Object.prototype are reported as repeated on first use (C64_constructor_false, C64_tag_false; included in the exact condition for properties, excluded for tags).'),
 'C66': ('proved', 'The 64-bit instance with 64-bit tables, which node-yencode creates. Not modelled: rolling CRCs, the concatenation functions, the 128-bit and SSE4.2 instances. Computing the address 63 below the end of short data is taken not to wrap around.'),
 'C67': ('partial', 'Executability is full for processors with SSE2, which ia32 builds use without asking (C67_sse2_false). Tables are right except in native builds with disable_avx256 for processors with AVX2 but not LZCNT (C67_tables_false). Coherent includes that leaf 7 of CPUID exists on processors with AVX, which the code does not check (C67_leaf7_false). RISC-V decoder: vectors of 128 and 256 bits (see C38; C73 and C86 for longer ones).'),
 'C65': ('proved', 'For text conversions that keep leading ASCII, as UTF-8 does (otherwise see C93).'),
 'C68': ('partial', 'Full with 64-bit size_t (line sizes up to 2147483641, see C74); with 32 bits for sizes that do not wrap. False beyond: C68_32_false, C68_combine_32_false.'),
 'C69': ('proved', 'Lengths up to 2^50 (2^53 for sizes in posts); beyond 2^53 sizes in posts are rounded (C64_large_false).'),
 'C70': ('partial', 'Schedules: full. What calls return on x86 is partial in the same way as C67. uv_once is taken from its documentation; Buffers shared between threads: C89.'),
 'C71': ('proved', 'False from position 2^31 on (C71_large_false), which Buffers of the Node.js versions in question do not reach.'),
 'C72': ('proved', 'Several posts in one text are excluded: the last end marker counts (C72_two_posts_false). Names and sizes as in C45.'),
 'C73': ('proved', 'Vector lengths are any positive multiples of 8 bytes. On other streams the result is wrong with vectors of more than 256 bits (C38_rvv_wide_false). The loop at decoder_rvv.cc:230-234, not entered on conformant streams, may not end on others (C86).'),
 'C74': ('partial', 'Full for vectorised encoders (C74_vector). For the portable one false for the six largest line sizes (C74_overflow_false); C74_portable says exactly for which it holds.'),
 'C75': ('partial', 'Full for Buffers below 2 GiB, and for the x86 encoders with line sizes from 16 on at every length (C75_encode_x86). False otherwise: C75_encode_false, C75_decode_false.'),
 'C76': ('partial', 'False for multi-part encoders (C76_retry_false, C76_gap_witness, C76_crc_witness); C76_refusal_final and C76_part_numbers say for every history what a refused call costs. Full for single-part encoders (C76_single_retry_partial).'),
 'C77': ('partial', 'Full for valid text cut between characters (C77_text_round_trip_partial, C77_text_parts_partial), for sizes (C77_size_in_bytes, C77_length_as_size), arrays and unusable data. False for lone surrogates and for pieces cut inside a character.'),
 'C78': ('proved', 'For decodeChunk only while it does not report the end of the data (C78_chunk); C78_chunk_false shows that this is needed. The bounds are the best possible (C78_tight).'),
 'C79': ('proved', 'Sizes below 2^53 as in C45. If the damage makes the data section start with =y, the line is taken for a header line (C79_keyword_needed); C79_marker_single and C79_marker_parts are about overwritten bytes, since inserted lines can go unreported (C79_insert_false).'),
 'C80': ('partial', 'Full for the portable decoder (C80_stuffed_generic) and, with every decoder, for posts made by the encoder (C80_article, C80_article_parts). For other texts and decoders posts whose data end in an escaped line break are excluded (C80_stuffed_partial, cf. C15).'),
 'C81': ('proved', 'Pieces below 2^63 bytes. C81_last_part_crc for posts made by the encoder, with the limits of C45.'),
 'C82': ('proved', 'With the limits of C45 (safe names, non-empty parts, size below 2^53). The loop writing the parts is the caller\'s and is part of the statement.'),
 'C83': ('proved', 'The probabilities are upper bounds obtained by an exponential potential; they confirm the orders of magnitude stated in the README, not its digits. Expected values for line sizes 1 and 2, where a byte can both start and end a line, are bounded from above only in the lemma Ratio.mean_upper.'),
 'C84': ('partial', 'Full when the C library grants memory. False when it refuses: the results of malloc and realloc are not checked (C84_refused_false, C84_refused_shrink_false).'),
 'C85': ('proved', 'Pieces below 2 GiB (the limit of C75). The loop that passes the pieces on is the caller\'s and is part of the statement (receive).'),
 'C86': ('partial', 'False for registers of 512 bits and more (C86_hang_false, C86_hang_intended_false, C86_hang_short_false; C86_never_ends is the general reason). Full for up to 256 bits and for conformant texts (C86_not_reached_partial, C73).'),
 'C87': ('proved', 'Counts are of functions from positions to bytes, all equally likely; says nothing about errors that are not.'),
 'C88': ('proved', 'With the exact bound (C88_long_false is the converse for longer data). The computation (Lemmas/CrcThree.lean) is done by the kernel on numbers of 91669 bits, for every distance of two of the bits.'),
 'C89': ('proved', 'Portable implementation; one read for each read of the source text, the values of which are arbitrary. The vectorised decoders are C90, the vectorised encoders C91, crc32 C92. C89_unchanged ties the model to the ones the other properties use; C89_decode_dots_torn shows that the dot-stripping decoder may give what no copy of the data gives.'),
 'C90': ('proved', 'What a round with disagreeing loads does is over-approximated (any masks, any data); that the over-approximation contains the rounds of the kernels on any bytes is C90_rounds, that it contains those with disagreeing loads is by inspection: each branch of the rounds ends in one of the three forms whatever the registers contain.'),
 'C91': ('proved', 'A round whose loads disagree is over-approximated on x86: it has the lengths and offsets of the round for some bytes and stores anything (by inspection, see Model/SharedEnc.lean). C91_encode_short and C91_encode_torn show that the exceptions in the statement do occur.'),
 'C92': ('proved', 'Each load of the source text is one load, made of a read of each of its bytes, so a load need not be atomic. C92_post_mismatch shows that the checksum of a post need not match its data. In C92_post_parts each call has its own memory.'),
 'C93': ('proved', 'The settings base64 and base64url are left out. indexOf and lastIndexOf with an encoding are modelled after the documentation and source of Node.js.'),
 'C94': ('proved', 'With the exact bound (C94_long_false is the converse for longer data). The kernel checks the discrete logarithms of the 255 bytes and their differences (Lemmas/CrcTwo.lean).'),
 'C95': ('proved', 'With the exact bound (C95_long_false is the converse for longer data). The kernel checks the logarithms of the 3005 sums 1 + x^a and the gaps between them (Lemmas/CrcFour.lean).'),
 'C96': ('partial', 'Proved for size and parts (C96_same, C96_parts, C96_bytes, C96_single) and for line sizes below 2^31 - 6. False as coded for other line sizes (C96_line_false: undefined behaviour for strings; C96_line_wraps_false) and for the text of the header (C96_header_false).'),
 'C97': ('partial', 'False as coded: C97_detached says what the function taken out of the module does, C97_detached_false that it throws on every post of the library. C97_object and C97_module say on what the result depends when it is called on an object.'),
 'C98': ('partial', 'False as coded: C98_documented_false (the difference is 66, not 2), C98_min_string_false (a string). C98_numbers, C98_max_string and C98_bigint say what the functions do.'),
 'C99': ('proved', "The loop over the pieces is the caller's and is part of the statement (addPieces). C99_break_needed shows why the caller has to write the line break where a line is full."),
 'C100': ('partial', 'The linear bound is false (C100_linear_false, with the exact work for a family of posts in C100_letters); the square of the length is proved as an upper bound, and the exact, constant work on the posts of the library itself (C100_own_single, C100_own_parts). The work is that of the matching algorithm of ECMA-262; an engine may do less, or the same faster.'),
 'C101': ('proved', 'Texts in which a line starts with =y (an escaped byte 0x0f there) are excluded for decodeChunk and, on the first line, for from_post, as the yEnc draft reserves them; C101_keyword_false shows that the condition is needed.'),
 'C102': ('proved', 'Work is the number of reads of the input, in the model of calls on data that changes (C89-C92). The loads inside a round of the vectorised decoders are not counted one by one (their number is fixed), only the rounds.'),
 'C103': ('proved', 'From C03 and the reference encoder. The first bytes of lines (dots, tabs, spaces) do not matter for the extremes.'),
 'C104': ('proved', 'C104_codes ties the model with messages to the one without, which all other theorems are about. A line whose tag is the name of something every object has (toString, ...) always counts as repeated, and a line =y__proto__ makes the names of its properties count as seen; the specification says so (SeenTags).'),
 'C105': ('proved', "The loop that writes the data is the caller's and is part of the statement (assemble, as in C82). C82 is about the library's own posts."),
 'C106': ('proved', 'For the unchecked casts of Node 8 and later (yencode.cc:56-57). The six largest line sizes with the scalar encoder are C11_never_ub_false. encodeIncr with an output and a line size below 128 can write past the output: encodeIncr_destination_overrun.'),
 'C107': ('proved', 'Conversions are part of the argument (an integer or none, a Boolean); that a conversion running JavaScript changes the Buffers meanwhile is not modelled. decodeIncr is always given a Number by index.js and is not included.'),
 'C108': ('proved', 'That the post only depends on the arguments is refuted by C108_depends_on_arguments_false. Numbers are non-negative integers; fractions, negative numbers and allocation failures are not modelled. The native calls get the arguments they get on later versions, so C107_same applies to them.'),
 'C109': ('proved', 'C109_on_entry_false refutes that encode uses the data as on entry. Different Buffers are taken not to share memory. encodeIncr with an output too small for short lines is undefined anyway (C106_incr).'),
 'C110': ('proved', 'C110_long_false shows that the bound is exact.'),
 'C111': ('proved', 'C111_long_false shows that the bound is exact.'),
}
