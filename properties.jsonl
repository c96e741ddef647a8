{"id": "C01", "title": "encode/decode round trip (plain)", "statement": "decode(encode(data, line_size, column_offset), false) returns exactly data, whatever the line size and column offset.", "quantifier": "every byte buffer of every length, every line_size from 1 to 2147483641 (larger ones: C74), every column_offset in [0, line_size)", "why_tests_cant": "Tests only sample buffers and a few dozen line sizes; losing or altering one byte can depend on an interaction of an escape, a column and the buffer end.", "anchors": ["src/encoder.cc:do_encode_generic", "src/decoder.cc:do_decode_noend_scalar", "src/yencode.cc:Encode", "src/yencode.cc:Decode"]}
{"id": "C02", "title": "encode/decode round trip through NNTP dot-unstuffing", "statement": "With column_offset 0, decode(encode(data, line_size), true) returns exactly data: encoder output needs no dot-stuffing, so the unstuffing decoder loses nothing.", "quantifier": "every byte buffer, every line_size from 1 to 2147483641 (larger ones: C74), column_offset = 0", "why_tests_cant": "Depends on no line of any output starting with '.', for every position at which a line break can fall.", "anchors": ["src/encoder.cc:do_encode_generic", "src/decoder.cc:do_decode_noend_scalar"]}
{"id": "C03", "title": "encode output is the reference yEnc encoding", "statement": "encode(data, line_size, column_offset) equals the byte-by-byte yEnc reference (escape NUL/CR/LF/'=' always, '.' at line start, tab/space at line start, line end and end of data; CRLF inserted before a character that would start at or beyond line_size).", "quantifier": "every buffer, line_size from 1 to 2147483641 (larger ones: C74), column_offset in [0,line_size)", "why_tests_cant": "The code has an 8-byte unrolled fast path with a revert step; agreement with the simple rule must hold at every column/length alignment.", "anchors": ["src/encoder.cc:do_encode_generic", "src/encoder.cc:escapeLUT", "src/encoder.cc:escapedLUT", "test/testenc.js:refYEnc"]}
{"id": "C04", "title": "encoded data contains only transport-safe bytes", "statement": "Output of encode never contains NUL, and CR and LF occur only as the two-byte pair CRLF.", "quantifier": "every buffer, line_size up to 2147483641 (larger ones: C74) and column_offset", "why_tests_cant": "A universally quantified statement about every output byte of every input.", "anchors": ["src/encoder.cc:do_encode_generic", "README.md"]}
{"id": "C05", "title": "no line starts with a dot, tab or space", "statement": "In the output of encode no line that the encoder starts (after a CRLF, or the first line when column_offset is 0) begins with '.', tab or space.", "quantifier": "every buffer, line_size up to 2147483641 (larger ones: C74), column_offset", "why_tests_cant": "Must hold at every possible line break position.", "anchors": ["src/encoder.cc:escapedLUT", "src/encoder.cc:do_encode_generic"]}
{"id": "C06", "title": "no line ends with tab or space, none ends inside an escape", "statement": "Every line of the output of encode, including the last, ends with a byte other than tab, space and never with an unpaired '='.", "quantifier": "every buffer, line_size from 1 to 2147483641 (larger ones: C74), column_offset in [0,line_size)", "why_tests_cant": "Needs every line end and every data end considered; trailing whitespace is trimmed by news servers.", "anchors": ["src/encoder.cc:do_encode_generic"]}
{"id": "C07", "title": "line lengths", "statement": "Each complete line of the output of encode is line_size bytes, or line_size+1 when its last character is an escape pair, the first line being shortened by column_offset; the last line is not longer than that and output never ends with a line break.", "quantifier": "every buffer, line_size from 1 to 2147483641 (larger ones: C74), column_offset in [0,line_size)", "why_tests_cant": "Ranges over all combinations of escapes around the wrap column.", "anchors": ["src/encoder.cc:do_encode_generic", "README.md:encode"]}
{"id": "C08", "title": "encoded data never looks like a terminator", "statement": "Feeding the output of encode (column_offset 0) to decodeChunk in any chunking from the initial state never reports ended, consumes everything, and yields data.", "quantifier": "every buffer, every line_size up to 2147483641 (larger ones: C74), every way to split the output in chunks", "why_tests_cant": "Infinite family of chunkings and inputs.", "anchors": ["src/decoder.cc:do_decode_end_scalar", "index.js:decodeChunk", "src/encoder.cc:do_encode_generic"]}
{"id": "C09", "title": "maxSize is an upper bound", "statement": "The length of encode(data, line_size, column_offset) never exceeds maxSize(data.length, line_size) minus its alignment slack of 64.", "quantifier": "every buffer, line_size from 1 to 2147483641 (larger ones: C74), column_offset", "why_tests_cant": "Worst cases mix full escaping with short lines and an early first break; only a counting argument covers all.", "anchors": ["index.js:maxSize", "src/yencode.cc:YENC_MAX_SIZE", "src/encoder.cc:do_encode_generic"]}
{"id": "C10", "title": "minSize lower bound", "statement": "minSize(length,line_size) is a lower bound on the length of encode(data,line_size) (README). FALSE as coded when length is a multiple of line_size; the true bound is length + 2*floor((length-1)/line_size).", "quantifier": "every non-empty buffer and line_size up to 2147483641 (larger ones: C74)", "why_tests_cant": "Bound over all inputs; the code's off-by-one shows only at exact multiples.", "anchors": ["index.js:minSize", "README.md:minSize"]}
{"id": "C11", "title": "encodeTo stays inside the destination", "statement": "encodeTo never writes at or beyond the size it requires of the output buffer, including transient over-wide stores; the bytes written and returned length equal encode's.", "quantifier": "every buffer, line_size, column_offset, every accepted destination size", "why_tests_cant": "Memory safety over all inputs; a test overrun can go unnoticed.", "anchors": ["src/yencode.cc:EncodeTo", "src/encoder.cc:do_encode_generic"]}
{"id": "C12", "title": "a maxSize buffer is always accepted", "statement": "encodeTo(data, Buffer(maxSize(data.length, line_size)), line_size) never fails with 'not enough space', and a buffer one byte short of the native requirement is always refused (for non-empty data).", "quantifier": "every length, every line_size from 1 to 2147483641 (larger ones: C74)", "why_tests_cant": "Two independent formulas in two languages must agree everywhere.", "anchors": ["index.js:maxSize", "src/yencode.cc:YENC_MAX_SIZE", "src/yencode.cc:EncodeTo"]}
{"id": "C13", "title": "argument handling of encode", "statement": "line_size 0 means 128, negative line_size is refused, column_offset < 0 or > line_size is refused, column_offset = line_size is the same as 0, empty data gives an empty buffer regardless of the other arguments.", "quantifier": "every integer line_size and column_offset, every buffer", "why_tests_cant": "Integer ranges; the check order matters (empty data is accepted even with bad arguments).", "anchors": ["src/yencode.cc:Encode", "src/yencode.cc:EncodeTo"]}
{"id": "C14", "title": "incremental encoding", "statement": "Encoding a buffer in pieces, passing each returned column to the next call, produces the same bytes as encoding it whole. FALSE as coded at line ends (the returned column is not advanced by a line-final character); holds for all splits whose returned column is below line_size-1.", "quantifier": "every buffer, every split, every line_size up to 2147483641 (larger ones: C74)", "why_tests_cant": "All split points of all buffers.", "anchors": ["src/yencode.cc:EncodeIncr", "src/encoder.cc:do_encode_generic"]}
{"id": "C15", "title": "decode equals unstuff-then-decode reference", "statement": "decode(data, stripDots) equals the two-layer reference: (if stripDots) remove one '.' after every CRLF and at the start, then drop CR/LF, map '=c' to c-106 and other bytes to c-42; a final lone '=' yields nothing.", "quantifier": "every byte buffer, both stripDots values", "why_tests_cant": "Arbitrary malformed input: all interleavings of '=', CR, LF, '.'.", "anchors": ["src/decoder.cc:do_decode_noend_scalar", "test/testdec.js:refYDec", "test/testdec.js:refYDecRaw"]}
{"id": "C16", "title": "decoded size bound", "statement": "decode never produces more bytes than it was given; decodeTo/decodeChunk never write beyond data.length bytes of output.", "quantifier": "every input, mode and state", "why_tests_cant": "Memory safety over all inputs.", "anchors": ["src/decoder.cc", "src/yencode.cc:DecodeTo", "src/yencode.cc:DecodeIncr"]}
{"id": "C17", "title": "in-place decoding", "statement": "decodeTo/decodeChunk with the same buffer for input and output gives the same result as with distinct buffers.", "quantifier": "every input, mode and state", "why_tests_cant": "Requires that no byte is overwritten before it is read, for all inputs.", "anchors": ["README.md:decodeTo", "src/decoder.cc"]}
{"id": "C18", "title": "decoders never read outside the input", "statement": "No decode call reads before the start or past the end of the data buffer, whatever the bytes and the state. FALSE as coded for decodeChunk with the ARM NEON code, which loads up to 12 bytes beyond the end (within the same aligned 16 bytes).", "quantifier": "every input, mode and state", "why_tests_cant": "Look-ahead reads at the end of buffer must be safe for all inputs; tests rarely detect over-reads.", "anchors": ["src/decoder.cc:do_decode_end_scalar", "src/decoder.cc:do_decode_noend_scalar", "src/decoder_neon64.cc:do_decode_neon"]}
{"id": "C19", "title": "decodeChunk is independent of chunking", "statement": "Splitting a stream into any chunks and threading the returned state gives the same concatenated output, total bytes read, ended flag and final state as one call on the whole stream.", "quantifier": "every stream, every list of chunks concatenating to it, every valid initial state", "why_tests_cant": "Exponentially many chunkings of infinitely many streams.", "anchors": ["index.js:decodeChunk", "src/decoder.cc:do_decode_end_scalar"]}
{"id": "C20", "title": "end-of-data detection is exact", "statement": "decodeChunk started fresh reports ended iff the stream (imagined after a CRLF) contains CRLF.CRLF, CRLF=y or CRLF.=y; it stops at the first byte completing the earliest such sequence, read points just after it, and state names which kind.", "quantifier": "every stream", "why_tests_cant": "First-occurrence claim over all streams, including malformed escapes.", "anchors": ["src/decoder.cc:do_decode_end_scalar", "README.md:decodeChunk"]}
{"id": "C21", "title": "read equals the input length unless ended", "statement": "decodeChunk consumes exactly its whole input when ended is false; when ended, never reads past the terminator.", "quantifier": "every stream and valid state", "why_tests_cant": "All inputs and states.", "anchors": ["README.md:decodeChunk", "src/yencode.cc:DecodeIncr"]}
{"id": "C22", "title": "decodeChunk output equals decode of the consumed data", "statement": "The output of decodeChunk is the two-layer reference decode of the bytes before the terminator.", "quantifier": "every stream", "why_tests_cant": "All inputs.", "anchors": ["src/decoder.cc:do_decode_end_scalar"]}
{"id": "C23", "title": "state strings round-trip", "statement": "The state string returned by decodeChunk, fed back, selects exactly the internal state that produced it; so a non-ended sequence of decodeChunk calls never throws. (Feeding back the state of an ended stream, or an arbitrary string, throws ReferenceError: defect recorded.)", "quantifier": "every history of decodeChunk calls", "why_tests_cant": "Histories of calls.", "anchors": ["index.js:decodeChunk", "index.js:decodePrev"]}
{"id": "C24", "title": "dot-stuffing is undone", "statement": "For every text x, decode(stuff(x), true) = decode(x, false), where stuff doubles a '.' at the start of each line.", "quantifier": "every byte string x", "why_tests_cant": "All strings, including those with bare CR/LF.", "anchors": ["src/decoder.cc:do_decode_noend_scalar"]}
{"id": "C25", "title": "crc32 is the IEEE CRC-32", "statement": "crc32(data) equals the reflected, inverted remainder of data's polynomial times x^32 modulo the IEEE polynomial.", "quantifier": "every buffer, every alignment of its address", "why_tests_cant": "All lengths and alignments; table-driven multi-chain code has length-dependent paths.", "anchors": ["src/crc.cc:do_crc32_incremental_generic", "src/crc.cc:generate_crc32_slice_table"]}
{"id": "C26", "title": "crc32 is incremental", "statement": "crc32(b, crc32(a, c)) = crc32(a+b, c) for every split.", "quantifier": "every a, b, initial c", "why_tests_cant": "All splits.", "anchors": ["src/yencode.cc:CRC32", "src/crc.cc"]}
{"id": "C27", "title": "crc32_combine", "statement": "crc32_combine(crc32(a), crc32(b), b.length) = crc32(a+b).", "quantifier": "every a, b (length below 2^64)", "why_tests_cant": "Depends on number-theoretic facts about x modulo the polynomial for all lengths.", "anchors": ["src/crc.h:crc32_combine", "src/crc.h:crc32_bytepow", "src/crc.cc:crc32_shift_generic"]}
{"id": "C28", "title": "crc32_zeroes appends null bytes", "statement": "crc32_zeroes(n, crc32(a)) = crc32(a followed by n zero bytes) for 0 <= n < 2^31.", "quantifier": "every a, every n", "why_tests_cant": "n ranges over 2^31 values, a over all buffers.", "anchors": ["src/yencode.cc:CRC32Zeroes", "src/crc.h:crc32_zeros"]}
{"id": "C29", "title": "crc32_zeroes with negative length removes null bytes", "statement": "crc32_zeroes(-n, crc32(a followed by n zeros)) = crc32(a), and crc32_zeroes(-n,\u00b7) and crc32_zeroes(n,\u00b7) are mutually inverse.", "quantifier": "every a, every n in [0,2^31)", "why_tests_cant": "Same.", "anchors": ["src/yencode.cc:CRC32Zeroes", "src/crc.h:crc32_unzero"]}
{"id": "C30", "title": "crc32_multiply is multiplication in the CRC field", "statement": "crc32_multiply is commutative, associative, distributes over xor, has identity 80000000 and absorbing 00000000, and equals polynomial product modulo the IEEE polynomial.", "quantifier": "every pair/triple of 4-byte values", "why_tests_cant": "2^64 pairs.", "anchors": ["src/crc.cc:crc32_multiply_generic", "README.md:crc32_multiply"]}
{"id": "C31", "title": "crc32_shift", "statement": "crc32_shift(n, c) = c times x^n in the field for n in (-2^31, 2^31); crc32_shift(-n, crc32_shift(n,c)) = c; shift(n+m) = shift(n) o shift(m).", "quantifier": "every n,m,c", "why_tests_cant": "2^64 combinations.", "anchors": ["src/crc.cc:crc32_shift_generic", "src/yencode.cc:CRC32Shift", "src/crc.h:crc32_powmod"]}
{"id": "C32", "title": "README formula for combining with crc32_shift", "statement": "crc32_combine(c1,c2,len) = crc32_shift(len*8, c1) xor c2 (README example), for len*8 < 2^31.", "quantifier": "every c1,c2,len", "why_tests_cant": "All values.", "anchors": ["README.md:crc32_shift", "src/crc.h:crc32_combine"]}
{"id": "C33", "title": "64-bit length reduction", "statement": "crc32_powmod(n) is congruent to n, and crc32_bytepow(n) to 8n, modulo 2^32-1, for every 64-bit n.", "quantifier": "every n < 2^64", "why_tests_cant": "2^64 values; upstream test covers a slice.", "anchors": ["src/crc.h:crc32_powmod", "src/crc.h:crc32_bytepow", "test/testcrcfuncs.c"]}
{"id": "C34", "title": "large lengths in crc32_zeroes/crc32_shift", "statement": "crc32_zeroes(n, c) appends n zero bytes for every n the API accepts. FALSE as coded for n >= 2^31 (argument truncated to a 32-bit int).", "quantifier": "every integer n", "why_tests_cant": "Requires lengths beyond what tests allocate.", "anchors": ["src/yencode.cc:CRC32Zeroes", "src/yencode.cc:CRC32Shift"]}
{"id": "C35", "title": "crc32 detects every burst error of at most 32 bits", "statement": "Two different buffers of equal length that differ only inside a window of 4 consecutive bytes have different crc32; in particular any single-byte change is detected.", "quantifier": "every pair of such buffers", "why_tests_cant": "All buffers and positions.", "anchors": ["src/crc.cc", "README.md:crc32"]}
{"id": "C36", "title": "CRC buffers are big-endian", "statement": "The 4-byte Buffers used for CRC values convert to and from the 32-bit value losslessly (most significant byte first).", "quantifier": "every 32-bit value and every 4-byte buffer", "why_tests_cant": "Total bijection.", "anchors": ["src/yencode.cc:read_crc32", "src/yencode.cc:pack_crc32"]}
{"id": "C37", "title": "crc32 result independent of memory alignment", "statement": "crc32 of the same bytes is identical whatever the address alignment of the buffer.", "quantifier": "every buffer, every alignment", "why_tests_cant": "Alignment is not controllable from tests.", "anchors": ["src/crc.cc:do_crc32_incremental_generic"]}
{"id": "C38", "title": "SIMD decode equals scalar decode", "statement": "On CPUs with SIMD the result of decode/decodeChunk equals the scalar result for every input, alignment and state. FALSE as coded for stripDots decode of inputs ending in '=CRLF' at one alignment class (last byte lost).", "quantifier": "every input, address alignment, vector width and state", "why_tests_cant": "Depends on alignment and length modulo vector width at once.", "anchors": ["src/decoder_common.h:_do_decode_simd", "src/decoder_avx2_base.h", "src/decoder_sse_base.h"]}
{"id": "C39", "title": "'=' run resolution bit trick", "statement": "For any pattern of '=' characters in a vector (with carry-in), exactly the alternate ones that really escape are kept, so runs like '====' decode as the scalar decoder does.", "quantifier": "every mask value of every width and carry-in", "why_tests_cant": "2^64 masks.", "anchors": ["src/decoder_common.h:fix_eqMask"]}
{"id": "C40", "title": "SIMD encode equals scalar encode", "statement": "On CPUs with SIMD the output of encode is identical to the scalar encoder.", "quantifier": "every input, line_size up to 2147483641 (larger ones: C74), column_offset", "why_tests_cant": "Kernel processes 16-64 byte blocks with reverts at line ends.", "anchors": ["src/encoder_common.h:do_encode_simd", "src/encoder_avx_base.h", "src/encoder_sse_base.h"]}
{"id": "C41", "title": "hardware CRC paths equal the generic one", "statement": "crc32, crc32_combine, crc32_zeroes, crc32_multiply and crc32_shift return the same values with PCLMULQDQ, VPCLMULQDQ, ARMv8 CRC, PMULL and RISC-V Zbc as with the generic code, for every Buffer whose length fits the C type long, and do not depend on the bytes around the Buffer.", "quantifier": "every input, alignment, initial value, content of the memory around the input, and every mixture of the implementations", "why_tests_cant": "Only one CPU type is available to a test run.", "anchors": ["src/crc_folding.cc", "src/crc_folding_256.cc", "src/crc_arm.cc", "src/crc_arm_pmull.cc", "src/crc_riscv.cc"]}
{"id": "C42", "title": "multi_post parts reassemble the file", "statement": "Decoding the data section of each part of multi_post in order and concatenating gives the data fed in, the begin/end offsets are contiguous from 1 to size, and part numbers run 1..parts.", "quantifier": "every file, every split in parts, every line_size up to 2147483641 (larger ones: C74)", "why_tests_cant": "All splits.", "anchors": ["index.js:YEncoder", "index.js:multi_post"]}
{"id": "C43", "title": "multi_post CRCs", "statement": "Each part's pcrc32 is the crc32 of its data, the running crc property equals the crc32 of all data fed so far, and the final part's crc32 equals the crc32 of the whole file.", "quantifier": "every history of successful encode calls", "why_tests_cant": "All histories.", "anchors": ["index.js:YEncoder", "src/crc.h:crc32_combine"]}
{"id": "C44", "title": "multi_post refuses wrong totals", "statement": "encode throws iff more than `parts` calls are made, the data exceeds `size`, or the last part leaves the total different from `size`; a completed encoder has pos = size and part = parts.", "quantifier": "every sequence of calls", "why_tests_cant": "All histories, including calls after a failure.", "anchors": ["index.js:YEncoder"]}
{"id": "C45", "title": "from_post inverts multi_post", "statement": "from_post(multi_post(name,size,1,line_size).encode(data)) yields data, its crc32 and begin/end properties with only the missing_yend_newline warning; likewise for parts of a multi-part post.", "quantifier": "every data buffer, every safe file name, every line_size from 1 to 2147483641 (larger ones: C74)", "why_tests_cant": "Parser has to find the end marker in arbitrary encoded data.", "anchors": ["index.js:from_post", "index.js:decoderParseLines", "index.js:YEncoder"]}
{"id": "C46", "title": "from_post is total on arbitrary bytes", "statement": "from_post returns an object or one of the three documented error codes for every Buffer, never throws a TypeError on a missing record: the begin and end records it dereferences always exist.", "quantifier": "every byte buffer, with the encoding property left at utf8 or set to latin1 or ascii (other settings: C93)", "why_tests_cant": "Arbitrary malformed posts.", "anchors": ["index.js:from_post"]}
{"id": "C47", "title": "file names cannot inject header lines", "statement": "Whatever the file name, the headers produced by multi_post contain it on one line. FALSE as coded: the sanitiser removes only the 3-character sequence CR LF NUL.", "quantifier": "every file name", "why_tests_cant": "All strings.", "anchors": ["index.js:RE_BADCHAR", "index.js:YEncoder"]}
{"id": "C48", "title": "post produces a single-part post", "statement": "post(filename, data, line_size) returns the documented post. FALSE as coded: it references an undefined function and always throws.", "quantifier": "every argument", "why_tests_cant": "Shown for every argument, not one call.", "anchors": ["index.js:post"]}
{"id": "C49", "title": "decodeTo refuses short destinations", "statement": "decodeTo with an output shorter than the input writes nothing. (README: throws; code: returns 0.)", "quantifier": "every pair of buffers", "why_tests_cant": "All sizes.", "anchors": ["src/yencode.cc:DecodeTo", "README.md:decodeTo"]}
{"id": "C50", "title": "encode is injective", "statement": "Two different buffers never have the same encoding (same line_size and column_offset).", "quantifier": "every pair of buffers", "why_tests_cant": "All pairs.", "anchors": ["src/encoder.cc:do_encode_generic"]}
{"id": "C51", "title": "decoding ignores line layout", "statement": "decode of encode output does not depend on line_size: re-wrapping the same data at any other line size or column offset decodes to the same bytes.", "quantifier": "every data, two line sizes up to 2147483641 (larger ones: C74), two offsets", "why_tests_cant": "All pairs of layouts.", "anchors": ["src/encoder.cc", "src/decoder.cc"]}
{"id": "C52", "title": "decodeChunk argument order", "statement": "With the argument order of the README (data, state, output) the output buffer is silently ignored and the call behaves as decodeChunk(data, state); with the order of the code (data, output, state) an output buffer at least as long as the data does not change the result, and a shorter one is refused.", "quantifier": "every data, output buffer and valid state", "why_tests_cant": "must hold for every data length, buffer length and state", "anchors": ["index.js:decodeChunk", "README.md:decodeChunk", "src/yencode.cc:DecodeIncr"]}
{"id": "C53", "title": "returned byte counts are exact", "statement": "The byte counts returned by encodeTo, decodeTo and decodeChunk equal the number of bytes written (and read). FALSE as coded for 2^31 bytes and more: counts are passed through a 32-bit integer and come back negative.", "quantifier": "every buffer length", "why_tests_cant": "needs multi-gigabyte buffers", "anchors": ["src/yencode.cc:EncodeTo", "src/yencode.cc:DecodeTo", "src/yencode.cc:DecodeIncr"]}
{"id": "C54", "title": "crc32 detects every two-bit error", "statement": "Flipping any two bits of a buffer that are less than 2^32-1 bits (512 MiB) apart changes its crc32.", "quantifier": "every buffer and pair of bit positions within that distance", "why_tests_cant": "number of buffers and positions; rests on the exact multiplicative order of x", "anchors": ["src/crc.cc", "README.md:crc32"]}
{"id": "C55", "title": "crc32 is affine over exclusive or", "statement": "For three buffers of equal length, crc32 of their exclusive or is the exclusive or of their crc32 values.", "quantifier": "every triple of equal-length buffers", "why_tests_cant": "all inputs", "anchors": ["src/crc.cc", "src/yencode.cc:CRC32"]}
{"id": "C56", "title": "crc32 is a bijection of the initial value", "statement": "For fixed data, crc32(data, init) takes every 4-byte value exactly once as init ranges over the 4-byte values.", "quantifier": "every buffer, every result", "why_tests_cant": "2^32 values for each of infinitely many buffers", "anchors": ["src/yencode.cc:CRC32"]}
{"id": "C57", "title": "crc32_shift enumerates the non-zero values", "statement": "crc32_shift(n) for -2^31 < n < 2^31 takes every non-zero 4-byte value exactly once.", "quantifier": "every non-zero 4-byte value", "why_tests_cant": "2^32 values", "anchors": ["src/yencode.cc:CRC32Shift", "src/crc.cc:crc32_shift_generic"]}
{"id": "C58", "title": "bad CRC arguments are refused", "statement": "crc32, crc32_combine, crc32_multiply, crc32_zeroes and crc32_shift throw when a CRC argument is missing or is not a 4-byte Buffer; they do not read outside a Buffer.", "quantifier": "every argument list of these shapes", "why_tests_cant": "all buffer lengths", "anchors": ["src/yencode.cc:CRC32", "src/yencode.cc:CRC32Combine", "src/yencode.cc:CRC32Zeroes", "src/yencode.cc:CRC32Multiply", "src/yencode.cc:CRC32Shift"]}
{"id": "C59", "title": "crc32_2pow and crc32_256pow", "statement": "crc32_2pow(n) is x^n (the inverse power for negative n) and crc32_256pow(n) is x^(8n) in the CRC field, for every 64-bit n except the least signed one.", "quantifier": "every 64-bit n", "why_tests_cant": "2^64 values", "anchors": ["src/crc.h:crc32_2pow", "src/crc.h:crc32_256pow"]}
{"id": "C60", "title": "from_post results describe the input", "statement": "When from_post succeeds, yencStart is at the first begin marker, dataEnd at the last end marker, data is the yEnc decoding of the bytes from dataStart to dataEnd and crc32 is the CRC-32 of data; without a data section data and crc32 are absent.", "quantifier": "every byte buffer on which from_post succeeds, with and without isRaw", "why_tests_cant": "Arbitrary surrounding bytes, several markers, malformed headers.", "anchors": ["index.js:from_post", "index.js:bufferFind", "index.js:bufferFindRev"]}
{"id": "C61", "title": "from_post data warnings are exact", "statement": "data_size_mismatch, pcrc32_mismatch and crc32_mismatch are among the warnings exactly when the size, pcrc32 or (without a part line) crc32 given on the end line disagrees with the decoded data.", "quantifier": "every byte buffer on which from_post finds a data section", "why_tests_cant": "A missed mismatch would hide corruption for some input; a spurious one would reject good data.", "anchors": ["index.js:from_post"]}
{"id": "C62", "title": "hardware CRC of very long buffers", "statement": "crc32 returns the CRC-32 of the whole Buffer on every platform, including those where long has 32 bits and size_t has 64 (64-bit Windows), for Buffers of 2^31 bytes and more.", "quantifier": "every buffer length up to the largest size_t", "why_tests_cant": "needs buffers of gigabytes on each kind of platform and CPU", "anchors": ["src/crc_folding.cc:do_crc32_incremental_clmul", "src/crc_folding_256.cc:do_crc32_incremental_clmul", "src/crc_arm.cc:do_crc32_incremental_arm"]}
{"id": "C63", "title": "from_post reads header lines as described", "statement": "When from_post succeeds, yencStart, dataStart, dataEnd and yencEnd delimit the header lines, the data section and the end line of the post, and props holds exactly the tags of these lines with the properties written on them: key=value pairs separated by spaces, the name on the begin line extending to the end of the line, a property or line given twice having its last value (names other than __proto__).", "quantifier": "every byte buffer on which from_post succeeds, every text conversion of the lines (the markers being searched as ASCII text, see C93)", "why_tests_cant": "Arbitrary text on any number of header lines: junk between properties, missing values, white space, repeated lines, names with spaces.", "anchors": ["index.js:decoderParseLines", "index.js:from_post", "index.js:RE_YPROP"]}
{"id": "C64", "title": "from_post header warnings are exact", "statement": "Each warning about header lines (ignored data, repeated property or line, missing line break, invalid or zero number, invalid checksum text, part number, part range and size contradictions) is given exactly when its condition holds of the lines and properties of the post, and there are no other warnings.", "quantifier": "every byte buffer on which from_post succeeds", "why_tests_cant": "Combinations of present, absent, malformed and contradictory properties are unbounded.", "anchors": ["index.js:decoderParseLines", "index.js:from_post", "index.js:DecoderWarning"]}
{"id": "C65", "title": "from_post errors are exact", "statement": "from_post returns no_start_found exactly if no =ybegin opens the data or a line, no_end_found exactly if from there on the data is not a sequence of header lines followed by an end line (with or without a data section), missing_required_properties exactly if line, size or name on the begin line or size on the end line is missing, and a result otherwise.", "quantifier": "every byte buffer, for text conversions that keep leading ASCII characters", "why_tests_cant": "Truncated, repeated and interleaved markers in arbitrary bytes.", "anchors": ["index.js:from_post", "index.js:DecoderError"]}
{"id": "C66", "title": "CRC-32 by crcutil on x86", "statement": "On x86 processors without carry-less multiplication crc32 is computed by the bundled crcutil library. Whichever of its code paths a compiler selects (template, GCC and Clang assembler for amd64, GCC, Clang and Microsoft MMX code for i386), setting up finishes with complete tables, and a call returns the CRC-32 of the data, the value the portable code returns, and reads no byte outside the data.", "quantifier": "every input length and content, alignment, initial value, memory around the input, and compiler path", "why_tests_cant": "Only one compiler and one processor type is exercised by a test run; alignment, length and the four interleaved streams interact.", "anchors": ["src/crc.cc:do_crc32_incremental_generic", "crcutil-1.0/code/gf_util.h:GfUtil", "crcutil-1.0/code/generic_crc.h:GenericCrc", "crcutil-1.0/code/multiword_64_64_gcc_amd64_asm.cc:CrcMultiwordGccAmd64", "crcutil-1.0/code/multiword_64_64_gcc_i386_mmx.cc", "crcutil-1.0/code/multiword_64_64_intrinsic_i386_mmx.cc", "crcutil-1.0/code/multiword_64_64_cl_i386_mmx.cc"]}
{"id": "C67", "title": "Start-up selects code the processor can run", "statement": "Loading the module on an x86 processor with SSE2 never executes an instruction the processor or operating system does not support (including XGETBV while asking), and afterwards encode, decode and crc32 run only instructions it supports, whatever extensions it has, whichever compiler and build options were used. The functions selected are among those for which the other properties hold and read only tables that were set up for them. The same for ARM and RISC-V with what the operating system reports.", "quantifier": "every answer of CPUID and XGETBV (consistent with the rule that newer extensions come with older ones), every compiler and set of build options, every memory content", "why_tests_cant": "A test run sees one processor, one operating system and one build; the failures are crashes on other machines.", "anchors": ["src/platform.cc:cpu_supports_isa", "src/platform.cc:cpu_supports_crc_isa", "src/encoder.cc:encoder_init", "src/decoder.cc:decoder_init", "src/crc.cc:crc32_init", "src/common.h:ISA_NATIVE", "binding.gyp", "src/yencode.cc:init_all"]}
{"id": "C68", "title": "Sizes on 32-bit platforms", "statement": "On platforms with 32-bit or 64-bit size_t, and in builds with or without disable_avx256: encode gives the encoding of its input and stays in the memory it allocates for it, encodeTo refuses destinations that are too small and otherwise writes only inside the destination, and crc32_combine takes the length it was given.", "quantifier": "every input length, line size, column and destination, every width of size_t, both build options", "why_tests_cant": "The failures need inputs of hundreds of megabytes on platforms the tests are not run on.", "anchors": ["src/yencode.cc:YENC_MAX_SIZE", "src/yencode.cc:Encode", "src/yencode.cc:EncodeTo", "src/yencode.cc:CRC32Combine"]}
{"id": "C69", "title": "maxSize and minSize in floating-point arithmetic, with escape ratios", "statement": "maxSize(length, line_size, escape_ratio) and minSize(length, line_size), computed with JavaScript Numbers, give the exact integer formulas for lengths up to 2^50 when no ratio (or 1) is given, the line size defaulting to 128. For every ratio from 0 to 1, data of which at most that part of the bytes gets escaped has an encoding that fits in maxSize with this ratio, with 64 bytes to spare, and the value is not larger than the ratio promises apart from fixed padding. Ratios outside 0 to 1 by more than rounding hides are refused, and no others. Property values in posts are compared as JavaScript Numbers, so sizes below 2^53 are compared exactly.", "quantifier": "every length, line size up to 2147483641, column, content and rational escape ratio", "why_tests_cant": "Rounding errors in products and quotients show only for particular combinations of long lengths, line sizes and ratios.", "anchors": ["index.js:maxSize", "index.js:minSize", "index.js:from_post"]}
{"id": "C70", "title": "Worker threads", "statement": "However many threads of a process load the module and call its functions, in whatever order their steps alternate: start-up runs once, no thread runs a function of the module while another is in start-up, every call returns what it returns in a process with one thread, and loading never deadlocks. Node.js before 10.7 runs start-up at every load; there, however often the module has been loaded, the functions return the same.", "quantifier": "every number of threads, every schedule, every division of start-up and of calls into steps, every history of loads, calls and thread ends", "why_tests_cant": "Races depend on the schedule, and tests see only a few.", "anchors": ["src/yencode.cc:init_all", "src/yencode.cc:NODE_MODULE_INIT"]}
{"id": "C71", "title": "Searching without Buffer.indexOf", "statement": "Where Buffers have no indexOf and lastIndexOf, the module's own searches find the first occurrence at or after the given position and the last occurrence, or report that there is none, exactly as the methods do, so that from_post gives the same results.", "quantifier": "every buffer, every non-empty text searched for, every position below 2^31", "why_tests_cant": "Off-by-one errors at the ends of the buffer and partial matches depend on the data.", "anchors": ["index.js:bufferFind", "index.js:bufferFindRev"]}
{"id": "C72", "title": "Posts inside articles", "statement": "from_post finds a post inside other text: lines before it (none of which starts with =ybegin) change nothing but move the returned positions by their length; text after a complete =yend line (in which no line starts with =yend) changes nothing; adding a missing line break after =yend removes the warning about it and nothing else. So every post made by multi_post, put into an article with headers and a terminator, gives back its data without warnings, with and without dot unstuffing.", "quantifier": "every text before and after, every post (valid or not), every file content, name, line size up to 2147483641 and division into parts", "why_tests_cant": "Markers may be cut by the ends of the surrounding text, and the data may contain anything.", "anchors": ["index.js:from_post", "index.js:bufferFind", "index.js:bufferFindRev", "index.js:YEncoder"]}
{"id": "C73", "title": "RISC-V vectors of any length", "statement": "On RISC-V, whatever the length of the vector registers: streams in which = is never followed by another =, by CR or by LF are decoded as by the portable code, at once or in chunks cut anywhere; everything encode writes is such a stream, so round trips are exact; and on any stream at all decode and decodeChunk stay inside their buffers and return no more bytes than they read.", "quantifier": "every vector length, every content of inactive vector elements, every input stream and chunking, every position of the buffers, every data, line size up to 2147483641 and column", "why_tests_cant": "The processors available to testers have 128 or 256 bit vectors; the results depend on where escapes fall relative to vector boundaries.", "anchors": ["src/decoder_rvv.cc:do_decode_rvv", "src/decoder_common.h:do_decode_simd"]}
{"id": "C74", "title": "line sizes near the largest integer", "statement": "encode and encodeTo give the yEnc reference encoding, and have defined behaviour, for every line size the argument can express, up to 2147483647. FALSE as coded for the portable encoder with the six largest line sizes: its column counter, an int, overflows if eight characters before the end of the line are escaped.", "quantifier": "every buffer, every line_size from 1 to 2147483647, every column_offset in [0, line_size), every implementation", "why_tests_cant": "The overflow is silent with most compilers and needs a particular line size, column and data.", "anchors": ["src/encoder.cc:do_encode_generic", "src/encoder_common.h:do_encode_simd", "src/yencode.cc:Encode", "src/yencode.cc:EncodeTo"]}
{"id": "C75", "title": "Buffers of 2 GiB and more where long is 32 bits (64-bit Windows)", "statement": "encode, encodeTo and decodeTo give the same results for Buffers of every length on systems where a C long is narrower than size_t as elsewhere. FALSE as coded from 2 GiB on: vectorised decoders read outside the Buffer, the portable decoder reports that nothing was decoded, the portable encoder (and the x86 ones for line sizes below 16) reads outside the Buffer. It holds for the x86 encoders with line sizes from 16 on, and for all Buffers below 2 GiB.", "quantifier": "every Buffer length and content, every width of long, every line_size and column_offset, every implementation", "why_tests_cant": "Needs Buffers of gigabytes on a particular platform.", "anchors": ["src/encoder.cc:do_encode_generic", "src/encoder_common.h:do_encode_simd", "src/decoder.cc:do_decode_noend_scalar", "src/decoder.cc:do_decode_end_scalar", "src/decoder_common.h:_do_decode_simd"]}
{"id": "C76", "title": "a refused encode call has no effect", "statement": "When a call of encode on a multi_post encoder throws because the data has the wrong length, the encoder is as before and the correct call can be made instead. FALSE as coded for multi-part encoders: the refused call uses up a part number, so its part is lost for good (whatever follows, the calls that return and the refused ones among the first `parts` calls are together at most `parts`, and no part with the number of a refused call is ever returned), and the `crc` property may have taken the refused data in. It holds for single-part encoders.", "quantifier": "every history of encode calls with data of any lengths, every file name, size, number of parts and line size", "why_tests_cant": "Histories of calls of any length with any pattern of refusals; and the damage shows only in later parts.", "anchors": ["index.js:YEncoder.prototype.encode", "index.js:_encodeSingle", "index.js:multi_post"]}
{"id": "C77", "title": "posting text", "statement": "A text passed to encode of a multi_post encoder as a string (in one piece, or cut into pieces between characters) is posted as UTF-8 and comes back through from_post; the size to declare is the number of UTF-8 bytes, so that declaring text.length works exactly for ASCII texts. Arrays of integers are posted modulo 256, and data that cannot be converted throws without changing the encoder. FALSE for strings with lone surrogates and for pieces cut inside a character.", "quantifier": "every string without lone surrogates, every way of cutting it between characters, every array of integers, every encoder state, every safe file name and line size", "why_tests_cant": "All Unicode texts and all ways of cutting them.", "anchors": ["index.js:YEncoder.prototype.encode", "index.js:_encodeSingle", "index.js:toBuffer", "index.js:from_post"]}
{"id": "C78", "title": "damage stays local", "statement": "If, anywhere in the result of encode, some adjacent bytes are damaged, lost or added (u replaced by v), decode returns the data with a piece of at most |u|+1 bytes replaced by at most |v|+2 bytes; all data before and after is intact. The same holds for decodeChunk as long as it does not report the end of the data; a single damaged byte can make it do so at once (=n damaged to =y), and then everything after is lost.", "quantifier": "every data, line size, place and kind of damage, both values of isRaw, every implementation of encoder and decoder", "why_tests_cant": "All data, all places and all replacements, including ones that forge escapes, line breaks and dots.", "anchors": ["index.js:encode", "index.js:decode", "index.js:decodeChunk", "src/encoder.cc:do_encode_generic", "src/decoder.cc:do_decode_scalar"]}
{"id": "C79", "title": "from_post reports damaged data", "statement": "If, in a post written by multi_post, up to three adjacent bytes of the data section are replaced by anything (without making the section start with =y), from_post still parses the post, and either returns the original data with the warnings of the undamaged post, or warns of data_size_mismatch or crc32_mismatch (pcrc32_mismatch for parts). If up to three adjacent bytes are overwritten so that the section starts with =y, from_post returns an error, or warns of data_size_mismatch or size_mismatch (size_mismatch_part_range for parts). Inserted text that includes a whole part line can go unreported.", "quantifier": "every file and division into non-empty parts, every safe name and line size, every place of damage of up to three bytes and every replacement, both values of isRaw", "why_tests_cant": "All files, places and replacements; rests on the error-detecting properties of the CRC and on how far decoding errors spread.", "anchors": ["index.js:from_post", "index.js:YEncoder.prototype.encode", "index.js:multi_post", "index.js:crc32"]}
{"id": "C80", "title": "from_post on dot-stuffed articles", "statement": "For every text, from_post(stuffed, true) on the text with dots doubled at the start of lines does what from_post(text, false) does on the text: the same error, or the same data, crc32, props and warnings, with every position n replaced by the length of the dot-stuffed first n bytes. So a post put into an article with other lines around it, the whole being dot-stuffed for transmission, comes back with its data and without warnings.", "quantifier": "every text (portable decoder); every text whose data section does not end in an escaped line break (other decoders); every article around a post made by multi_post", "why_tests_cant": "All texts, including dots anywhere before, in and after the post, and all positions.", "anchors": ["index.js:from_post", "index.js:bufferFind", "index.js:bufferFindRev", "README.md:from_post", "src/decoder.cc:do_decode_scalar"]}
{"id": "C81", "title": "the checksum of a file from the checksums of its parts", "statement": "For any texts that from_post parses as posts with data, folding crc32_combine(crc, post.crc32, post.data.length) over the results in order, starting from four zero bytes, gives the CRC-32 of the concatenated data. For the parts written by multi_post that is the crc32 property of the last part.", "quantifier": "every sequence of parsable posts (made by the encoder or not), both values of isRaw, every CRC implementation", "why_tests_cant": "All numbers, lengths and contents of parts.", "anchors": ["index.js:from_post", "index.js:crc32_combine", "index.js:YEncoder.prototype.encode", "README.md:crc32_combine"]}
{"id": "C82", "title": "parts may arrive in any order", "statement": "If the parts written by multi_post are parsed by from_post in any order, possibly several times, and the data of each are written at offset part.begin - 1 of a buffer of the file's size, the buffer holds the file as soon as every part has arrived, whatever it held before.", "quantifier": "every file and division into non-empty parts, every order and repetition of arrivals, every initial content, every implementation", "why_tests_cant": "All permutations with repetition of all files' parts.", "anchors": ["index.js:from_post", "index.js:multi_post", "index.js:YEncoder.prototype.encode"]}
{"id": "C83", "title": "how many bytes are escaped in random data", "statement": "If all data of n bytes are equally likely, the expected number of escape characters in encode(data, line_size) is (4n + 5l)/256 where l = 65/64 * n/line_size is the number of lines, four of 256 bytes being escaped everywhere and three and two more at the start and end of a line; l is exact up to 1.2 percent and the total up to a constant of less than 0.02. With lines of 128 characters and 300 bytes or more the expected escape ratio is 0.0158 rounded (README). The ratio exceeds 5 % for 1 KiB of random data with a probability below 10^-11, exceeds 1.85 % for 128 KiB with a probability below 10^-12, and for any length n exceeds 5 % with a probability below 1.05 * 0.977^n.", "quantifier": "every length of data, every line size of at least 3, every encoder implementation; the probabilities count all 256^n data", "why_tests_cant": "The claims are about sums over all data of a length; sampling cannot see probabilities of 10^-12.", "anchors": ["README.md:maxSize", "src/encoder.cc:do_encode_generic", "src/yencode.cc:Encode"]}
{"id": "C84", "title": "the memory of results is released exactly once", "statement": "In every history of encode, decode, decodeChunk (and native encodeIncr) calls and garbage collections in which the C library grants the memory asked for, nothing undefined happens: no block is freed twice or used after being freed. At every moment the memory in use is exactly one block per uncollected result Buffer, of that Buffer's length, no two Buffers sharing one; when all are collected everything has been given back. Calls that throw take no memory. If the C library refuses memory, the behaviour is undefined. With Node.js 0.10 the amount reported to V8 is the total length of the uncollected Buffers.", "quantifier": "every history of calls with any arguments and collections in any order, every behaviour of the C library (moving blocks, realloc to size 0), every initial heap, every implementation", "why_tests_cant": "All interleavings of calls and collections; leaks and double frees show only under some allocators and schedules.", "anchors": ["src/yencode.cc:free_buffer", "src/yencode.cc:Encode", "src/yencode.cc:EncodeIncr", "src/yencode.cc:Decode", "src/yencode.cc:DecodeIncr"]}
{"id": "C85", "title": "a download in pieces collects the data and its checksum", "statement": "If the encoded body of an article, followed by the trailer (\\r\\n=y) or the end of the article (\\r\\n.\\r\\n) and anything else, arrives in pieces, and every piece is passed to decodeChunk with the last state and what it returns to crc32 with the last CRC until ended is set, then the outputs joined are exactly the data encoded, the CRC is that of the data, and the unread rest is exactly what follows. Cut off anywhere earlier, the outputs are a prefix of the data with its CRC, and continuing later from the saved state and CRC completes both.", "quantifier": "every data, line size, division into pieces (including cuts inside escape sequences, line breaks and the trailer), cut-off point and continuation, every implementation of encoder, decoder and CRC", "why_tests_cant": "All divisions and all cut-off points of all streams.", "anchors": ["index.js:decodeChunk", "src/yencode.cc:DecodeIncr", "src/yencode.cc:CRC32", "src/decoder.cc:do_decode_end_scalar"]}
{"id": "C86", "title": "decoding returns with RISC-V vectors of any length", "statement": "On RISC-V every call of decode and decodeChunk returns, whatever the length of the vector registers and whatever vector instructions leave in elements they do not compute. FALSE as coded for registers of 512 bits and more: if an = is followed by another =, CR or LF, the loop that adds masks may never end (the addition is done on one element only, carries are shifted by whole bytes, and carries out of elements that nothing was added to are counted again in each round).", "quantifier": "every vector length, input and content of unspecified vector elements, any number of rounds of the loop", "why_tests_cant": "Non-termination depends on the vector length and on unspecified register contents; the processors available have registers of 128 or 256 bits.", "anchors": ["src/decoder_rvv.cc:do_decode_rvv", "src/decoder_rvv.cc:mask_lshift"]}
{"id": "C87", "title": "what a matching checksum says", "statement": "Any four adjacent bytes of any data can be set in exactly one way so that crc32 gives a chosen value. Of the data of one length (four bytes or more) exactly one in 2^32 has each value; of all changes that keep the length, less than one in 2^32 leave crc32 the same.", "quantifier": "every data, every length of at least four bytes, every position of the four bytes, every checksum, every CRC implementation", "why_tests_cant": "Counts over all byte strings of every length.", "anchors": ["src/yencode.cc:CRC32", "src/crc.cc:crc32"]}
{"id": "C88", "title": "crc32 detects every three-bit error in short data", "statement": "A change of one, two or three bits that are less than 91639 bits apart changes crc32; in particular every such change of data of at most 11454 bytes. The bound is exact: in all data of 11455 bytes or more there are three bits whose change leaves crc32 the same.", "quantifier": "all data and all sets of up to three bits", "why_tests_cant": "There are more than 10^14 triples of bits for each data.", "anchors": ["src/yencode.cc:CRC32", "src/crc.cc:crc32"]}
{"id": "C89", "title": "data that another thread changes during the call", "statement": "If the bytes of the data Buffer change while a call runs (it may be a view of a SharedArrayBuffer), the portable code still touches nothing outside the data and the output. encode, encodeTo, encodeIncr and decode without dot stripping give the result for some copy of the data, each byte taken at some time during the call. decode with dot stripping, decodeTo and decodeChunk's native call return, write at most one byte for each byte read, and report an end only if its last byte was there; but with dot stripping the result need not be the decoding of any such copy.", "quantifier": "every data length, every history of the memory (a different byte may be found at every single read), every line size, column and decoder state; portable implementation", "why_tests_cant": "The number of interleavings of the reads with changes is exponential, and which of them occur depends on timing.", "anchors": ["src/encoder.cc:do_encode_generic", "src/decoder.cc:do_decode_noend_scalar", "src/decoder.cc:do_decode_end_scalar", "src/yencode.cc:Encode", "src/yencode.cc:Decode", "src/yencode.cc:DecodeIncr"]}
{"id": "C90", "title": "vectorised decoders on data that another thread changes during the call", "statement": "If the bytes of the data Buffer change while decode, decodeTo or decodeChunk's native call runs in a vectorised implementation, so that the several loads a round of the kernel makes of the same bytes disagree, the call still returns and touches nothing outside the data (for decodeChunk on ARM: outside the aligned 16 bytes the data ends in) and the output: at most one byte is written for each byte read, and an end is reported only if its last byte was there when the scalar code read it.", "quantifier": "every data length and alignment, every history of the memory, every sequence of rounds each doing anything its code can do with any values in its registers, every decoder state; all kernels (RISC-V: registers of 128 and 256 bits)", "why_tests_cant": "Whether two loads of one round disagree depends on timing and cannot be provoked at will; the number of combinations is astronomical.", "anchors": ["src/decoder_common.h:_do_decode_simd", "src/decoder_sse_base.h:do_decode_sse", "src/decoder_avx2_base.h:do_decode_avx2", "src/decoder_neon64.cc:do_decode_neon", "src/decoder_neon.cc:do_decode_neon", "src/decoder_rvv.cc:do_decode_rvv", "src/yencode.cc:Decode", "src/yencode.cc:DecodeIncr"]}
{"id": "C91", "title": "vectorised encoders on data that another thread changes during the call", "statement": "If the bytes of the data Buffer change while encode, encodeTo or encodeIncr runs in a vectorised implementation, the call still returns and touches nothing outside the data and the allocated memory, and the result has at least one and at most two bytes for each byte plus the line breaks. If the loads each round makes of the same byte agree (on ARM and RISC-V they always do), the result is an encoding of some copy of the data, each byte taken at some time during the call, in which a line may be one column short only where the byte that ends it changes between one that must be escaped and one that need not be; so it decodes to that copy, contains no NUL and no line that is too long, and without such a change it is exactly the encoding of the copy. If the loads disagree, a byte may be written without being escaped.", "quantifier": "every data length, every history of the memory, every line size and column the API accepts, every sequence of rounds whose loads agree or disagree in any way; all kernels (RISC-V: registers of 128 and 256 bits)", "why_tests_cant": "Whether two loads of one byte disagree depends on timing and cannot be provoked at will; the number of combinations is astronomical.", "anchors": ["src/encoder_common.h:do_encode_simd", "src/encoder_sse_base.h:do_encode_sse", "src/encoder_avx_base.h:do_encode_avx2", "src/encoder_neon.cc:do_encode_neon", "src/encoder_rvv.cc:do_encode_rvv", "src/yencode.cc:Encode", "src/yencode.cc:EncodeTo", "src/yencode.cc:EncodeIncr"]}
{"id": "C92", "title": "crc32 on data that another thread changes during the call", "statement": "If the bytes of the data Buffer change while crc32 runs, in any implementation, the call still returns, reads nothing outside the data except the rest of aligned 16 or 32 bytes that contain data, and the result is the CRC-32 (from the given initial value) of some copy of the data, each byte taken at some time during the call; if the data does not change it is the CRC-32 of the data. A post made with multi_post while the data changes therefore has a data section that encodes one copy and a checksum of another; they need not match. In a post of several parts the checksums of the parts and of the file still fit together.", "quantifier": "every data length and alignment, every history of the memory, every initial value, every content of the memory after the data; all implementations (portable, crcutil, PCLMULQDQ, VPCLMULQDQ, ARM, RISC-V)", "why_tests_cant": "Which loads see which writes depends on timing and cannot be provoked at will; the x86 code loads some bytes twice and its loads overlap, so that the claim needs an argument about all combinations.", "anchors": ["src/crc.cc:do_crc32_incremental_generic", "src/crc_folding.cc:crc_fold", "src/crc_folding_256.cc:crc_fold", "src/crc_arm.cc:arm_crc_calc", "src/crc_riscv.cc:rv_crc_calc", "crcutil-1.0/code/generic_crc.h", "src/yencode.cc:CRC32", "index.js:YEncoder"]}
{"id": "C93", "title": "the encoding property and from_post", "statement": "With the encoding property of the module set to utf8, latin1 or ascii, from_post never throws, and reads posts of the library with the right data and checksum and without further warnings; the file name comes back as what the setting makes of its UTF-8 bytes without white space at the end, so unchanged if it is ASCII, but not in general otherwise (the writing functions ignore the property and always write UTF-8). With utf16le, data without null bytes, such as posts, is never recognised as a post (no_start_found or no_end_found), and on some other data from_post throws a TypeError. With hex, from_post throws a TypeError on every Buffer that is not empty.", "quantifier": "all data, all names, all line sizes, the five settings", "why_tests_cant": "The claims are about all Buffers; which bytes are trimmed or taken for markers depends on the setting.", "anchors": ["index.js:from_post", "index.js:bufferFind", "index.js:bufferFindRev", "index.js:YEncoder"]}
{"id": "C94", "title": "crc32 detects every change of two bytes", "statement": "Replacing any two bytes that are less than 145212 bytes apart by any others (or one of them) changes crc32; in particular every change of one or two bytes of data of at most 145212 bytes. The bound is exact: in all data of 145213 bytes or more there are two bytes that can be replaced so that crc32 stays the same.", "quantifier": "all data, all pairs of positions, all values of the two bytes", "why_tests_cant": "There are more than 10^14 changes for each data; the exact bound rests on the discrete logarithms of all bytes.", "anchors": ["src/yencode.cc:CRC32", "src/crc.cc:crc32"]}
{"id": "C95", "title": "crc32 detects every four-bit error in short data", "statement": "A change of up to four bits that are less than 3006 bits apart changes crc32; in particular every such change of data of at most 375 bytes. The bound is exact: in all data of 376 bytes or more there are four bits whose change leaves crc32 the same.", "quantifier": "all data and all sets of up to four bits", "why_tests_cant": "There are more than 10^12 sets of four bits for each data.", "anchors": ["src/yencode.cc:CRC32", "src/crc.cc:crc32"]}
{"id": "C96", "title": "multi_post with any values as size, parts and line size", "statement": "Whatever primitive values are given as size, parts and line_size, a multi_post encoder behaves as with the integers they stand for, or throws: decimal strings and BigInts for size and parts give the same posts as the integers; a missing line size is 128; no more than `parts` parts and no more than `size` bytes are taken; an encoder whose size or number of parts is not an integer never gives out a last part or the checksum of the file; a single post is given out only if size equals the length of the data. (As coded: a line size that is not a Number is undefined behaviour, line sizes from 2^32 are written to the header but wrapped for the encoding, and sizes such as true or '1\\r\\n' are written as given.)", "quantifier": "all primitive values of the three arguments, all names, all histories of calls with all data", "why_tests_cant": "The values range over all Numbers, BigInts and strings, the histories are unbounded, and undefined behaviour need not show.", "anchors": ["index.js:YEncoder", "index.js:multi_post", "src/yencode.cc:Encode", "src/yencode.cc:ARG_TO_INT"]}
{"id": "C97", "title": "from_post does not depend on the object it is called on", "statement": "from_post gives the same result whether it is called as a method of the module, on another object, or as a function taken out of the module. (As coded: on another object the lines are read by the encoding of that object, and as a function it never gives a post: it throws a TypeError on everything that has a start line.)", "quantifier": "all data, all receivers, all settings of encoding that keep ASCII", "why_tests_cant": "The data is arbitrary; that no data gives a post needs all of them.", "anchors": ["index.js:from_post", "index.js:bufferFind"]}
{"id": "C98", "title": "minSize and maxSize with any values, and how they are related", "statement": "minSize(length, line_size) equals maxSize(length, line_size, 0) - 2, as documented, and both functions take a length given as another primitive value for the Number it stands for or throw. (As coded: the difference is 66 for every length, minSize concatenates the digits of a length given as a string with those of the line breaks, and BigInts throw; maxSize takes decimal strings for the Numbers.)", "quantifier": "all primitive values of the arguments; lengths up to 2^50 for the difference", "why_tests_cant": "The values range over all Numbers, BigInts and strings.", "anchors": ["index.js:minSize", "index.js:maxSize", "README.md:minSize"]}
{"id": "C99", "title": "posts put together by the caller", "statement": "The post put together as in the example of the README (header text, encode(data), footer with the checksum) is exactly the one multi_post(name, data.length, 1).encode(data) returns, and from_post reads the data back. The data may also be encoded piece by piece: if the caller passes the column reached (counted from the last line break, with a line break written where the line is full) to encode and the checksum so far to crc32, then, whatever the pieces, from_post gives the data back with the right checksum, and the lines are those of an encoded message.", "quantifier": "all data, all ways to cut it into pieces (also empty ones), all line sizes from 1 to 2147483641, all safe names, with and without dot unstuffing", "why_tests_cant": "Unboundedly many ways to cut unboundedly much data; the cuts fall on every kind of line position.", "anchors": ["README.md:Example", "index.js:from_post", "index.js:YEncoder", "src/yencode.cc:Encode", "src/yencode.cc:CRC32"]}
{"id": "C100", "title": "work done on header lines", "statement": "Looking for properties in the header lines of a post takes work at most proportional to the length of the post. (False as coded: the expression that finds the properties is tried at every position and backs off one character at a time, so a line of n letters without = takes (n+1)^2 tests of characters. The work is never more than the square of the length of the post, and the other two expressions do work proportional to the text.) On the posts that the library makes itself the work does not depend on the data, the file name or the line size: 33 tests for a file in one post, 66 for a part, 73 for the last part. The expressions match what they are meant to: the leftmost name followed by =, texts of decimal digits only, texts of eight hexadecimal digits.", "quantifier": "all posts (any bytes), all lines, all values; the lower bound for every constant", "why_tests_cant": "A bound on the work for every input; the worst inputs are not those one tests with.", "anchors": ["index.js:RE_YPROP", "index.js:RE_NUMBER", "index.js:decoderParseLines", "index.js:from_post"]}
{"id": "C101", "title": "what other encoders write is decoded", "statement": "A yEnc text may be the work of another encoder: it may escape bytes that need not be escaped, break its lines anywhere between characters, with any kind of line break, and leave dots at the start of lines, which the server doubles. Whatever these choices, decode gives the data back, decodeChunk gives it back in any pieces and stops at the trailer, and from_post returns it, without warnings if size and checksum are right. What encode writes is one of these texts.", "quantifier": "all data, all texts that encode it in the sense of the yEnc draft (any choice of optional escapes and of line breaks), all ways to cut the stream, all implementations; for decodeChunk texts in which no line starts with =y", "why_tests_cant": "There are exponentially many encodings of the same data; tests have those of one or two encoders.", "anchors": ["src/decoder.cc:do_decode_noend_scalar", "src/decoder.cc:do_decode_end_scalar", "src/decoder_common.h", "index.js:decodeChunk", "index.js:from_post"]}
{"id": "C102", "title": "the work is proportional to the length", "statement": "encode, decode, decodeChunk and crc32 end after a number of reads of the data that is proportional to its length, whatever the data, even if another thread changes it during the call: no input makes them slow. Portable code: encode at most 3 reads for each byte, decode exactly 1, with dot stripping at most 3 (and 4 more), decodeChunk at most 4 (and 5 more), crc32 exactly 1. Vectorised code: the decoders at most these numbers and 24 more outside the kernels, with at most one round for each full vector width of data; for each encoder there is a constant; the checksums read each byte once, and at most 70 bytes again.", "quantifier": "all data and all changes of it during the call, all lengths, line lengths and columns, all decoder states, all implementations", "why_tests_cant": "A benchmark measures some inputs; that there is no slow one (a line end that is undone again and again, a run of carriage returns that is scanned again) is about all of them.", "anchors": ["src/encoder.cc:do_encode_generic", "src/encoder_common.h:do_encode_simd", "src/decoder.cc", "src/decoder_common.h:_do_decode_simd", "src/crc.cc:do_crc32_incremental_generic", "crcutil-1.0/code/generic_crc.h", "src/crc_folding.cc", "src/crc_arm.cc", "src/crc_riscv.cc"]}
{"id": "C103", "title": "the largest and the smallest size of encoded data", "statement": "The largest size that encode can return for n bytes, with line length l from column c, is 2n + 2b, b being the number of line breaks if every byte is escaped; the smallest is n + 2b', b' being the number if none is. Both are reached. maxSize(n, l) is exactly 66 or 68 more than the largest size if l is even; if l is odd it is more and more too large as n grows, and never too small.", "quantifier": "all lengths, data, line lengths, columns and encoder implementations", "why_tests_cant": "The extremes over all data of a given length; the number of data is 256^n.", "anchors": ["src/encoder.cc:do_encode_generic", "index.js:maxSize", "src/yencode.cc:YENC_MAX_SIZE"]}
{"id": "C104", "title": "the warnings of from_post quote what they are about", "statement": "Nothing in a header line is passed over silently: every header line consists of its tag, of properties and of other text, and the warnings about header lines are, in order and word for word, one for each piece of other text, quoting it, one for each repeated property and one for each repeated line, naming it. All other warnings and all errors have fixed messages, one for each code (size_mismatch and missing_required_properties have two).", "quantifier": "all byte strings given to from_post, all text conversions, all implementations", "why_tests_cant": "Header lines are arbitrary text; which parts of it are dropped depends on where the property names are found in it.", "anchors": ["index.js:decoderParseLines", "index.js:from_post", "index.js:DecoderWarning", "index.js:DecoderError"]}
{"id": "C105", "title": "a file put together from posts of any origin", "statement": "A caller that parses whatever articles of a file arrive with from_post and writes the data of each where its =ypart line says gets the file, whatever encoders made the articles, at whatever places the file was cut (the ranges may overlap), whatever text is around the posts, in whatever order they arrive and however often, with and without dot stuffing, as soon as the ranges cover the file. Before that, the bytes of the ranges that have arrived are right and the others are untouched.", "quantifier": "all files, all divisions into ranges, all encodings of each range, all surrounding texts, all orders of arrival, all implementations", "why_tests_cant": "Orders of arrival, ways to cut a file and ways to encode a part are unbounded in number.", "anchors": ["index.js:from_post", "src/yencode.cc:Decode"]}
{"id": "C106", "title": "exactly which calls have no defined outcome", "statement": "Whatever arguments they are given, crc32 and crc32_multiply return or throw. crc32_combine has no defined outcome exactly if its first two arguments are 4-byte Buffers and a third is given that is not an integer; crc32_zeroes and crc32_shift exactly if the optional CRC is acceptable and the count is not an integer or is 2^31 modulo 2^32; decode and decodeTo exactly if there is data (that fits the output) and stripDots is given and is not a Boolean; encode and encodeTo (line sizes up to 2147483641, or any with a vectorised encoder) exactly if there is data and the line size, or the column after a line size that is not refused, is given and is not an integer. encodeIncr without an output exactly if a line size or column is looked at though it is not an integer, even without data; with an output and line sizes of at least 128 exactly if moreover the output is large enough. In particular decode(data, 1), decode(data, undefined) and encode(data, undefined) are undefined.", "quantifier": "all argument lists of any length: Buffers of any length, any integers, Booleans, other values; all implementations", "why_tests_cant": "undefined outcomes cannot be observed reliably, and the absence of others is about every combination of arguments", "anchors": ["src/yencode.cc:Encode", "src/yencode.cc:EncodeTo", "src/yencode.cc:Decode", "src/yencode.cc:DecodeTo", "src/yencode.cc:CRC32", "src/yencode.cc:CRC32Combine", "src/yencode.cc:CRC32Zeroes", "src/yencode.cc:CRC32Multiply", "src/yencode.cc:CRC32Shift", "src/yencode.cc:EncodeIncr"]}
{"id": "C107", "title": "the native functions on Node before version 8", "statement": "On Node before version 8 (package.json allows 0.10 and later) a native call does exactly what the same call does on later versions with its arguments after the Buffers converted first, to integers or, for decode and decodeTo, to Booleans. So every call whose outcome is defined on later versions has the same outcome on earlier ones. undefined for a line size, column or stripDots is as good as leaving it out. decode, decodeTo, crc32 and crc32_multiply always return or throw; so do encode, encodeTo, encodeIncr (line sizes up to 2147483641, for encodeIncr with an output at least 128), crc32_combine, crc32_zeroes and crc32_shift (counts other than 2^31 modulo 2^32) when the conversions to integers succeed.", "quantifier": "all argument lists of any length, values with any outcome of their conversions, all implementations", "why_tests_cant": "it compares two builds for every argument list; a test runs one build on some arguments", "anchors": ["package.json:engines", "src/yencode.cc:ARG_TO_INT", "src/yencode.cc:ARG_TO_BOOL", "src/yencode.cc:Encode", "src/yencode.cc:EncodeTo", "src/yencode.cc:EncodeIncr", "src/yencode.cc:Decode", "src/yencode.cc:DecodeTo", "src/yencode.cc:CRC32", "src/yencode.cc:CRC32Combine", "src/yencode.cc:CRC32Zeroes", "src/yencode.cc:CRC32Multiply", "src/yencode.cc:CRC32Shift"]}
{"id": "C108", "title": "data that is not a Buffer on Node before 4.5", "statement": "On Node before 4.5 (package.json allows 0.10 and later) an encoder made by multi_post treats Buffers, strings and arrays as on later versions, over whole histories of calls, and still throws for null, undefined and Booleans without changing. A Number n is not refused, as it is on later versions, but taken for a length: the call posts n bytes of memory that was not initialised, and from_post of the post returns exactly those bytes with no warning that other posts lack. So the post does not only depend on the arguments.", "quantifier": "all encoders and histories of calls, all contents of the memory, all names without line breaks, line sizes and pieces of a file, all implementations", "why_tests_cant": "what the memory holds is not under the control of a test; the claim is for all contents", "anchors": ["index.js:toBuffer", "index.js:YEncoder", "index.js:YEncoder.prototype.encode", "index.js:_encodeSingle"]}
{"id": "C109", "title": "code that runs in the middle of a native call on Node before 8", "statement": "On Node before 8 converting the line size, column or count runs valueOf of the argument in the middle of the call, which may change any Buffer. encode, encodeTo and encodeIncr then encode the data as it is after the conversions, with the numbers these gave, exactly as such a call does on later versions; crc32_combine, crc32_zeroes and crc32_shift use the CRCs as they were before. For no data encode and encodeTo run no such code. As long as no conversion throws, encode, encodeTo and encodeIncr without an output return or throw whatever the conversions do, as Buffers keep their lengths. That encode encodes the data it is called with is false.", "quantifier": "all contents of all Buffers, all effects of the conversions on them that keep lengths, all numbers, all implementations; line sizes other than the six largest for the absence of undefined behaviour", "why_tests_cant": "the conversion can be any program, including one that calls the same functions", "anchors": ["src/yencode.cc:ARG_TO_INT", "src/yencode.cc:Encode", "src/yencode.cc:EncodeTo", "src/yencode.cc:EncodeIncr", "src/yencode.cc:CRC32Combine", "src/yencode.cc:CRC32Zeroes", "src/yencode.cc:CRC32Shift"]}
{"id": "C110", "title": "crc32 detects every five-bit error in very short data", "statement": "In data of at most 37 bytes, or anywhere if the bits are less than 300 bits apart, changing up to five bits changes the crc32. The bound is exact: in any data of 38 bytes or more five bits can be changed so that the crc32 stays the same.", "quantifier": "all data, all sets of up to five bits within 300, all implementations and alignments", "why_tests_cant": "there are some 10^10 sets of five bits, for each content of the data", "anchors": ["src/yencode.cc:CRC32", "src/crc.cc:crc32"]}
{"id": "C111", "title": "crc32 detects every six-bit error in very short data", "statement": "In data of at most 25 bytes, or anywhere if the bits are less than 203 bits apart, changing up to six bits changes the crc32. The bound is exact: in any data of 26 bytes or more six bits can be changed so that the crc32 stays the same.", "quantifier": "all data, all sets of up to six bits within 203, all implementations and alignments", "why_tests_cant": "there are some 10^11 sets of six bits, for each content of the data", "anchors": ["src/yencode.cc:CRC32", "src/crc.cc:crc32"]}
