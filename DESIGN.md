# Formal model of node-yencode: design

Source under study: `/repo` (animetosho/node-yencode, pinned). The proofs are Lean 4
(4.33.0) + single Mathlib modules, project in `/verif/lean`. Build: `cd lean && lake build`.

## 1. Trusted base

* Lean's kernel, and the three standard axioms `propext`, `Classical.choice`, `Quot.sound`.
  No axiom is added; no `sorry`, `admit`, `native_decide`, `bv_decide`, `implemented_by`.
  `Verif/Axioms.lean` prints the axioms of every property theorem at build time.
* The reading of the C++/JS source. The code is never run; each definition carries a comment with
  the file and lines it models, and says where it simplifies.
* The C semantics used: `unsigned char`/`uint32_t`/`uint64_t` wrap (modelled by `BitVec`), little-endian.  `int` overflow
  is the outcome `none` in the encoders (columns; elsewhere `int` and pointer differences are small), arguments are converted to `int` as the code does.  `long` is wide enough
  for the lengths of Buffers, except where its width is a parameter: the CRC functions (C41_long, C62) and Model/Long.lean (C75).

## 2. What is modelled

| code | model | notes |
|---|---|---|
| `src/encoder.cc` LUTs, `do_encode_generic` | `Verif/Model/EncoderScalar.lean` | function by function, with the 8x unrolled loop and its revert; buffer high-water mark tracked |
| `src/decoder.cc` scalar decoders | `Verif/Model/DecoderScalar.lean` | reads outside the buffer are a distinct outcome (`none`) |
| the same, on memory | `Verif/Model/{Mem,DecoderInPlace}.lean` | one byte-addressed memory, input and output may overlap |
| `src/decoder_common.h` wrapper, `fix_eqMask`, `decoder_set_nextMask` | `Verif/Model/{DecoderMask,DecoderSimd}.lean` | on memory, kernel as parameter; loads beyond the input and stores beyond the output are a distinct outcome |
| `src/decoder_sse_base.h`, `decoder_avx2_base.h` (SSE2, SSSE3, SSE4.1/AVX, AVX2, AVX512, VBMI2) | `Verif/Model/{Vec,DecoderX86}.lean` | instruction by instruction; vectors are functions from lane numbers to bytes |
| `src/decoder_neon64.cc`, `src/decoder_neon.cc` (32-bit branches) | `Verif/Model/DecoderNeon.lean` | instruction by instruction, on four resp. two registers |
| `index.js` conversion of the data of `encode` | `Verif/Model/JsData.lean` | Buffers, strings, arrays of integers, unusable values |
| `src/decoder_rvv.cc` | `Verif/Model/{VecRvv,DecoderRvv}.lean` | instruction by instruction; what instructions leave unspecified is arbitrary.  For registers of more than 256 bits the result of the loop of lines 225-236 is arbitrary in the decoder; the loop itself is in `Verif/Model/DecoderRvvWide.lean` |
| `src/encoder_common.h` wrapper | `Verif/Model/EncoderSimd.lean` | on memory, kernel as parameter; also the frame shared by the x86 kernels |
| `src/encoder_sse_base.h`, `encoder_avx_base.h` (SSE2 to VBMI2) | `Verif/Model/EncoderX86.lean` | instruction by instruction, with the generated tables, all preprocessor variants |
| `src/encoder_neon.cc` (AArch64, ARMv7), `src/encoder_rvv.cc` | `Verif/Model/{EncoderEol,VecNeon,EncoderNeon,VecRvv,EncoderRvv}.lean` | frame shared by the two, then instruction by instruction; RISC-V for every vector length from 128 to 65536 bits, what `vcompress` leaves unspecified is arbitrary |
| `src/crc.cc` generic CRC, multiply, shift; `src/crc.h` | `Verif/Model/Crc.lean` | tables generated as in the code |
| `src/crc_folding.cc`, `crc_folding_256.cc`, `crc_arm.cc`, `crc_arm_pmull.cc`, `crc_riscv.cc` | `Verif/Model/{Clmul,CrcX86,CrcArm,CrcRiscv}.lean` | instructions modelled by their ISA definition (carry-less product, CRC32 step); loads outside the allowed blocks are a distinct outcome |
| `crcutil-1.0`: `GfUtil`, `GenericCrc`, the `CrcMultiword` of each compiler, as created by `src/crc.cc:8` | `Verif/Model/Crcutil.lean` | tables generated as in the code; loads outside the data and table accesses outside the tables are a distinct outcome |
| `src/yencode.cc` bindings | `Verif/Model/Bindings.lean` | argument checks, size computation, int truncation |
| `src/yencode.cc` bindings as built for Node before 8 | `Verif/Model/Legacy.lean` | arguments are converted, not cast; not `decodeIncr` |
| `index.js` `toBuffer` as the `Buffer` constructor (Node before 4.5) | `Verif/Model/LegacyData.lean` | the contents of newly allocated memory are arbitrary; Numbers are non-negative integers |
| `src/yencode.cc` conversions that run JavaScript (Node before 8) | `Verif/Model/LegacyEffects.lean` | encode functions and CRC functions with counts; Buffers do not share memory |
| `src/yencode.cc` `malloc`, `realloc`, `free_buffer`, external Buffers | `Verif/Model/Heap.lean` | any C library, any order of collections; names of blocks are not reused |
| JavaScript Numbers: binary64 arithmetic, strings to Numbers; `minSize`, `maxSize` with all arguments (`index.js`) | `Verif/Model/Number.lean` | `-0` and `0` are one value; arguments that are neither Numbers nor `undefined` are left out |
| `src/yencode.cc` size computations where `size_t` has any number of bits, with and without `YENC_DISABLE_AVX256` | `Verif/Model/Platform.lean` | only `encode`, `encodeTo` and `crc32_combine`, the entry points that compute sizes |
| `src/platform.cc` (x86, RISC-V), `encoder_init`, `decoder_init`, `crc32_init` and the `*_set_funcs` they call, the compiler switches of `binding.gyp`, the macros of `common.h` | `Verif/Model/Startup.lean` | answers of CPUID and XGETBV are arbitrary; each file is compiled or not and with macros depending on compiler, architecture and options (`Build`); ARM: the flags the operating system reports are arbitrary |
| `src/yencode.cc` `init_all`, `NODE_MODULE_INIT` with several threads | `Verif/Model/Threads.lean` | any division of start-up and calls into steps, any schedule; `uv_once` as documented by libuv; memory is sequentially consistent, which the absence of races (C70_race_free) justifies; Buffers shared between threads: next line |
| `src/encoder.cc` `do_encode_generic`, `src/decoder.cc` `do_decode_noend_scalar`, `do_decode_end_scalar`, on data that changes | `Verif/Model/Shared.lean` | trees of reads, each read of the source text one read with an arbitrary result (C++ calls this a data race and leaves it undefined; a compiler that reads a byte twice where the text reads it once, or a wide read that is not a number of byte reads, is not covered); output Buffer private |
| the vectorised decoders on data that changes | `Verif/Model/SharedDec.lean` | wrapper and scalar functions as trees of reads; a round of a kernel is any of the things its code can do with any values in its registers, since its loads of the same bytes may disagree |
| the vectorised encoders on data that changes | `Verif/Model/SharedEnc.lean` | wrapper and loops as trees of reads; rounds on the bytes loaded first; an x86 round whose later loads disagree has the lengths and offsets of the round for some bytes, and stores anything |
| the CRC functions on data that changes | `Verif/Model/SharedCrc.lean` | every load is a read of each of its bytes, in order; bytes after the Buffer that an aligned load takes in are arbitrary |
| `index.js` `bufferFind`, `bufferFindRev` for old Node.js | `Verif/Model/JsFind.lean` | the argument is a Buffer already |
| `index.js` | `Verif/Model/Js*.lean` | decodeChunk, minSize/maxSize, YEncoder, from_post |
| `index.js` `from_post` with other values of `encoding` | `Verif/Model/JsCharset.lean` | `utf8`, `latin1`, `ascii`, `utf16le`, `hex`; `Buffer.prototype.indexOf` and `lastIndexOf` of Node.js with these encodings |
| `index.js` `multi_post`, `YEncoder` with any primitive `size`, `parts`, `line_size` | `Verif/Model/JsArgs.lean` | Symbols and objects left out; Number::toString is a parameter that writes integers below 10^21 in decimal; fractional Numbers as line size count as undefined, as V8's cast is unchecked |
| `index.js` `from_post` called on other objects or without one | `Verif/Model/JsThis.lean` | the settings of `JsCharset.lean` |
| `index.js` `minSize`, `maxSize` with any primitive values | `Verif/Model/JsSizes.lean` | `-0` is not told from `0` |
| `index.js` 10-11, 319 (regular expressions), 75-119, 213-353 with the work counted | `Verif/Model/JsRegex.lean` | the matcher of ECMA-262; only the tests made in looking for properties are counted |
| `index.js` 16-24, 75-119, 213-353 with the messages of warnings and errors | `Verif/Model/JsMessage.lean` | |

Not modelled: V8/N-API object plumbing other than the release of memory by finalizers, the system calls by which ARM features are
found, Visual C++ before 2010, the parts of crcutil
which `src/crc.cc` does not reach (rolling CRCs, concatenation, 128-bit and SSE4.2 instances), performance (apart from the number of tests of the regular expressions, C100, and of reads of the data, C102).

Implementations are abstracted: `Enc.IsImpl`, `Dec.IsImpl` (`Verif/Model/Dispatch.lean`; `Dec.M.IsSimd` are the vectorised decoders) and `Crc.IsImpl` (`Verif/Model/CrcBindings.lean`) list the
functions the start-up code can install; API theorems quantify over them.  `tools/gen.py` writes `Verif/Axioms.lean` and `MANIFEST.json`.

## 3. Specifications (independent of the model)

`Verif/Spec/*.lean`: the yEnc reference encoder written from the yEnc draft / `test/testenc.js`, the two-layer
(NNTP unstuff, then yEnc) reference decoder from `test/testdec.js`, textual terminator search, bit-by-bit CRC-32
and GF(2)[X] remainder.  `Spec/Cpu.lean`: which instructions a program may execute, after the processor manuals.

## 4. Plan per property

* C01-C03, C50, C51: prove `do_encode_generic` = reference encoder (refinement by induction on the remaining
  input, the unrolled loop being shown equal to eight single steps or reverted); then round trip of the reference by
  induction over characters with the decoder automaton.
* C04-C07: invariants of the reference encoder by induction; transferred through C03.
* C08: corollary of C20 with the absence of terminators in encoder output, and C19.
* C09, C10, C12: counting invariants on output length; C10's README claim is refuted by a witness and replaced by the true bound.
* C11: high-water mark of the writing model bounded by YENC_MAX_SIZE.
* C13, C49: case analysis over the binding model.
* C14: refuted with a witness for splits at line ends; `_partial` for the rest; `C14_exact` gives the splits for which it holds, `C14_decodes` what remains true for all of them.
* C15, C24: scalar decoder = automaton = two-layer reference, by induction.
* C16-C18: totality (no `none`; C18 refuted for `decodeChunk` on ARM by running the model), length bound, and a memory-level in-place model refined to the list model.
* C19-C23: decodeChunk = fold of a 7-state automaton; fold over append gives chunk independence; terminator theorem by
  an invariant linking the automaton state to the last bytes read.
* C25-C37, C54-C59: `AdjoinRoot crcP` over `ZMod 2`; an injective additive map from 32-bit values into it; crc as a linear map; table = 8 bit steps; x^(2^32)=x checked by
  kernel computation of repeated squaring, so the multiplicative order divides 2^32-1; it is exactly 2^32-1 because no quotient by one of the
  five prime factors gives 1, so the generator is primitive and the ring is a field.
* C38: `Kernel.Ok` says what one round of a kernel has to do to the registers, the output and the carried state; the wrapper is proved right for every such kernel by
  induction over rounds (`Lemmas/DecSimd.lean`), in any memory with the output not ahead of the input; each kernel is proved `Ok` (`Lemmas/DecX86*.lean`,
  `Lemmas/DecNeon*.lean`, `Lemmas/DecRvv.lean`, with what they share in `Lemmas/DecRound.lean`).  Refuted at the
  `=CRLF` tail with a witness, and characterised exactly there.
* C39: the subtraction in `fix_eqMask` is analysed bit by bit by induction (`Lemmas/DecMask.lean`).
* C40: encoder wrapper and kernels in the same way: `Kernel.Ok` says what a round has to store and how far it has to go back at the end of a line; the frame is proved right
  for every such kernel (`Lemmas/EncBlock.lean`), each kernel is proved `Ok` (`Lemmas/EncX86*.lean`).  `EKernel.Ok` and `Lemmas/EncEol.lean` do the same for the ARM and RISC-V kernels, which handle the end of a
  line and the beginning of the next at once; `Lemmas/EncNeon*.lean`, `Lemmas/EncRvv.lean`.  The generated tables are checked entry by entry over all indices.
* C41, C62: carry-less products as numbers (`clmulN`) valued in the ring of C25; an invariant says what the accumulators are worth after `off` bytes, in the same form for the
  128-bit, 256-bit and RISC-V code (`goal`), each block, tail and reduction step is one ring identity; the constants are checked by kernel computation against `x^n`;
  the Barrett step is proved for all 32-bit values.  `Crc.IsImpl` admits every mixture, so C25-C37 and C54-C59 hold for all of them.
* C66: the same `goal`; each table row is a multiple of a power of `x` (by induction over its doublings), every way to take a word apart is the sum over its
  bytes, and a round of the four interleaved streams is one ring identity.
* C67: start-up writes function pointers and tables; the functions are represented by the variant of the model they are compiled from and the set of instruction set
  extensions of the switches of their file.  Proved: every extension the compiler may use there is `Usable` (by cases over the levels `cpu_supports_isa` can return, each
  with the CPUID bits it has seen), and the selected variants are instances of `Enc.IsImpl`, `Dec.M.IsImpl`, `Crc.IsImpl` with the tables they need.  `Coherent` lists what is assumed of
  processors beyond what is asked: newer extensions come with older ones.
* C68: the entry points with size computations modulo 2^bits; equal to those of `Model/Bindings.lean` when nothing wraps, refuted with witnesses when it does.
* C69: `Model/Number.lean` defines binary64 over the rationals (rounding to nearest, ties to even, overflow, NaN) and the conversion of strings to Numbers.  Integers up to 2^53 are exact, the
  relative error is at most 2^-53, and a rounded quotient of integers below 2^53 has the right integer part; the rest is arithmetic of inequalities.
* C70: transition system of threads; invariant over schedules.  C71: loop invariants; the answers are unique.
* C72: each search of `from_post` is shown to commute with adding text in front, and not to see text behind; checks only append warnings.
* C73: on streams without `=` before a critical character the RISC-V kernel takes the same branch as one in which the unspecified value is right (`Lemmas/DecRvvWide.lean`), and two kernels that
  agree on every round give the same result in the frame (`Lemmas/DecAgree.lean`).  Bounds: a kernel whose rounds load and store within bounds stays within the buffers, whatever it computes (`Lemmas/DecFits.lean`).
* C42-C48, C60, C61, C63-C65: state machine of YEncoder (invariant over histories of calls) and parser model (`Model/JsPost.lean`). Strings are lists of UTF-16
  units, UTF-8 conversion is modelled; Numbers made from text are abstract (`Env`), with the laws used stated in `Env.Lawful`.  `jsEnv`
  (`Model/Number.lean`) has the Numbers of JavaScript and satisfies them (`jsEnv_lawful`); `natEnv` is a smaller instance used in examples.  C45: the text written by the encoder is parsed symbolically.  C46: the records that are dereferenced exist
  because the first line starts with the begin marker and the last with the end marker.  C63-C65: `Spec/Header.lean` describes lines, properties and pieces passed over by
  relations without reference to the parser; the parser is proved to compute them (`Lemmas/JsHeader.lean`), both ways, and the relations to be functional, so that warnings and errors can be stated
  as equivalences.
* C74: the column is an `Int` in the model, and a sum that does not fit `int` is `none`.  Scalar encoder: the column exceeds the line size by at most 6; a round of ten NULs at the end of a
  line does it.  Vectorised encoders: the reference column of an unescaped final tab or space is less than the line size, so the last increment fits.
* C75: Model/Long.lean repeats the four places with a `long` of `L` bits.  Equality with the ordinary models below `2^(L-1)` bytes; for x86 encoders a bound on what the kernel leaves to the
  scalar loop.  Not modelled: what the NEON and RISC-V encoder kernels do with lengths that do not fit (taken for undefined).
* C76: from the invariant of C42-C44; counting argument over `Spec.history`.  C77: Model/JsData.lean puts the conversion of the argument before `encode`; Spec/Text.lean counts UTF-8 bytes
  and says what valid text is; round trip by C45 and the UTF-8 lemmas.
* C78: Lemmas/Damage.lean writes the reference decoder as a machine with six states and shows that on encoder output, whatever state it is in, at most two bytes bring it back into the right state.
  C79: `from_post` is computed for an arbitrary data section (Lemmas/JsFromPost.lean), and C78 is combined with C35 (bursts of up to 32 bits change the CRC).
  If the section comes to start with `=y`, only its first line can be lost (encoded data contains no `=y`), the decoded rest is shorter than the file, and the end line still gives the size (Lemmas/Marker.lean).
* C80: Lemmas/JsStuff.lean shows that dot stuffing commutes with every search `from_post` makes (the patterns have no dots) and leaves the lines starting with `=` unchanged; the data section then is the stuffed section and C24 applies.
* C81, C82: the caller's loops are written out (`combineAll`, `assemble`) over `from_post`; C81 by induction from C27 and C60, C82 by an invariant on which byte ranges are already right.
* C83: the escapes of `n` random bytes are counted by a recursion on the column (Lemmas/EscRatio.lean); potentials give the upper and lower bounds of the mean, and an exponential potential (Lemmas/EscTail.lean) the tail bounds. The probability space is the uniform one on `Fin n → Fin 256`, written as counts.
* C84: invariant over histories: blocks in use = blocks before + one per uncollected Buffer, names distinct. The C library is a parameter that decides what is granted and moved. Without the grant it is refuted.
* C85: the caller's loop (`receive`, Props/Stream.lean) is evaluated with the decoder automaton over the joined pieces and the CRC of the joined outputs (induction over the pieces); cut-off and continuation by splitting the automaton's run.
* C86: the loop is a state machine on 64-bit elements (Model/DecoderRvvWide.lean); refuted by an invariant that keeps a carry alive in every round (element 1 all ones, nothing carried into it), and by evaluating the model up to the loop. Where the loop is not reached, by the meaning of the shifted mask.
* C87: four adjacent bytes determine the CRC injectively (C35), so bijectively by counting; the counts follow by splitting off the last four bytes.
* C88: differences of up to three bits are sums of up to three powers of `x`; that `1 + x^i + x^j` does not vanish for `i < j < 91639` is a statement on repetitions in the linear recurring sequence of the coefficients of `x^31`, which the kernel checks on one large number for each `j - i` (Lemmas/CrcThree.lean); the trinomial of degree 91639 gives the converse.
* C89: the loops of the portable code as trees of reads; a postcondition for all answers of all reads, proved as for C03 and C19 with the bytes found so far in place of the input; over memory that does not change the trees give what the models over lists give (C89_unchanged).
* C90: the wrapper and the scalar functions as trees of reads; rounds by an inductive predicate without reference to bytes (C90_rounds: the kernels' rounds satisfy it). Each allowed round keeps within its limits and advances the output by at most the input it consumes; then as C89.
* C91: as C89, with what the proofs for data at rest show of a round of the kernels (`Round.Ok`, `Eol.Ok` in Lemmas/EncBlock.lean and Lemmas/EncEol.lean). The specification is `Spec.Loose` (Spec/Loose.lean): the reference encoding, with lines that may be one column short where a predicate holds of the byte that ends them; with the predicate `False` it is the reference encoding (`Loose.exact`).
* C92: each function is shown to do what the function on data at rest does on every copy of the Buffer that begins with the bytes as they were loaded (`Sim`, Lemmas/SharedCrc.lean), or, where registers hold more than the bytes that count (x86), to keep the same invariants for every such copy (`RSim`, Lemmas/SharedCrcFold.lean); the correctness of the functions on data at rest does the rest.
* C93: for the settings that keep ASCII the searches are those of Model/JsPost.lean, so that function is the same (`fromPostC_eq`) and C46, C60-C65 apply; names by computing the trimmed header line. UTF-16: a match needs a null byte. Hex: every line is text of hexadecimal digits, so no begin record is ever made.
* C94: two bytes `a`, `b` at a distance of `k` bytes cancel if `x^(8k) a = b`. A table has the discrete logarithms of all bytes (checked by the kernel: Lemmas/CrcLog.lean computes powers of `x` with operations on natural numbers); no two differ by `8k` modulo `2^32 - 1` with `k < 145212`.
* C95: `1 + x^i + x^j + x^k = 0` means that the logarithms of `1 + x^i` and `1 + x^(k-j)` differ by `j`. A table has these logarithms for all exponents up to 3005 in ascending order; the gaps are too large, or too large for the given `k - j`.
* C96: Model/JsArgs.lean is the encoder with arbitrary primitive values (compared as ECMA-262 says, on the Numbers of Model/Number.lean). A simulation relates it to the encoder with integers; the other statements follow from the checks a returning call has made. How Numbers other than integers are written is a parameter.
* C97: Model/JsThis.lean is `from_post` with its receiver; equality with the function of C93 for objects, case analysis for `undefined`.
* C98: Model/JsSizes.lean is `minSize` and `maxSize` on primitive values; on Numbers they are the functions of C69, from which the difference is computed.
* C99: the caller's programs are definitions in Props/Recipe.lean. An invariant of the text written so far (its lines, and the state in which the decoders leave it; Lemmas/Recipe.lean) is preserved by each piece.
* C100: the three regular expressions are modelled with the backtracking matcher of ECMA-262, which counts tests of characters (Model/JsRegex.lean); `from_post` is modelled again with the count, and shown to return the same. The bound telescopes over the matches in a line and over the lines. For the posts of the library itself the tests are counted property by property (Lemmas/JsRegexPost.lean).
* C101: a relation between data and texts (Spec/Interop.lean), written from the yEnc draft; induction over it, with the decoder's state a function of the last two bytes (Lemmas/Interop.lean).
* C102: `Prog.Cost`, a postcondition on the number of reads of a program; induction over the loops (Lemmas/Work.lean, WorkEnc.lean, WorkCrc.lean); termination without undefined behaviour comes from C89-C92.
* C103: induction over the data with the room left on the line (Lemmas/EncRange.lean); the extremes are runs of one byte.
* C104: Model/JsMessage.lean is from_post with messages; it is shown to be the model of JsPost.lean when they are left out.  Spec/Message.lean describes a line as a sequence of items whose texts make up the line, and what has to be said about each.
* C105: one invariant (which bytes are right) by induction over what has arrived; that an article carries a range of the file is C101_article_part.
* C106: cases on the arguments; the predicates on arguments are stated with remainders, not with the conversions of the model.
* C107: a second model of the native functions with the converting macros (`Model/Legacy.lean`), compared with the first by cases on the arguments; definedness from C106.
* C108: a second model of the conversion (`Model/LegacyData.lean`) where a Number carries the contents of the memory allocated for it; by induction on histories, and C45.
* C109: a model of the native functions with conversions as functions on the contents of all Buffers (`Model/LegacyEffects.lean`), related to the API model for the store before or after.
* C110: five powers of `x` that cancel mean that a sum of two is a sum of two and 1. Both sets of sums, for all exponents up to 299, are computed by the kernel and divided by their bits until one side is empty (`Lemmas/CrcFive.lean`).
* C111: six powers of `x` that cancel mean that two exponents `v` with `1 + x^a + x^b = x^v` are close to each other. The kernel checks a table of all of them, for `a` and `b` up to 202, in the order of `v` (`Lemmas/CrcSix.lean`, 20301 entries; some four minutes).

## 5. Disagreements between code and documentation found while reading

1. `post` (index.js:202) calls `encodeCrc`, which is not defined anywhere: every call throws ReferenceError.
2. `exports.encoding` (index.js:201,367) refers to the discarded original `exports`, so the `encoding` setting does not affect file names.
3. `decodeChunk` (index.js:154): `for(var l=-3; l<0; i++)` increments an undeclared variable; in strict mode this throws
   ReferenceError for every state string that is not in the table and whose last three characters are not either - among them the two
   state strings returned when a stream has ended.
4. README documents `decodeChunk(data, state, output)`; the code takes `(data, output, state)`.
5. `RE_BADCHAR = /\r\n\0/g` removes only the three-character sequence; CR and LF survive in file names.
6. `decodeTo` with a short output returns 0; README says it throws.
7. `minSize` is not a lower bound when the length is a multiple of the line size; `minSize = maxSize(..,0)-2` in README is off by 64.
8. `do_decode_noend_scalar<true>` (decoder.cc:32,42) returns 0 after having written one byte when it starts in state EQ and the input is
   `\r` or `\r\n`; reachable from `decode(data, true)` with SIMD when the scalar tail is exactly `\r\n` after a `=`.
9. `crc32_zeroes`/`crc32_shift` truncate their count to `int`; -2^31 negates INT_MIN (undefined).
10. `encodeIncr` (native, not exported by index.js) checks the destination size before reading line_size.
11. The column returned by the encoders is not advanced by a line-final character, so `encodeIncr` chunking is wrong at line ends.
12. decoder_rvv.cc:225-236, only reached with vector registers of 512 bits and more, when `=` is followed by `=`, CR or LF: the 64-bit-lane add of the `fix_eqMask`
    emulation passes vl=1, so all other lanes are unspecified (C38_rvv_wide_false); the carries are shifted as `vl64/8` bytes, which is none for vl64 < 8; and
    `nextCarry` is not masked with `carry`, so the loop may not end.
13. `YEncoder.encode` increments `part` and updates `crc` before the checks that may throw.
14. Byte counts (`encodeTo`, `decodeTo`, `read`/`written` of `decodeChunk`) are returned through a 32-bit integer and come back negative from 2^31 on.
15. `crc32_bytepow` (crc.h:52-55), branch for compilers that are neither GNU C nor Visual C++: the last addition can carry out of 32 bits (first at lengths of
    2^61 and more), so the result is off by one there.  GNU C and Visual C++ use another formula, which is right for all 64-bit values.
16. `multi_post` accepts an empty piece, but writes `=ypart begin=N+1 end=N`, for which `from_post` warns `invalid_part_range` (C45_empty_part_false).
17. `from_post`: a line `=y__proto__ part=1` replaces the prototype of the properties object; `ydata.part` is then a truthy inherited text and the crc32
    check is skipped (C61_proto_skips_check_false).
18. `from_post`: tags and properties named like members of `Object.prototype` (`toString`, ...) are reported as duplicates on first use
    (C64_constructor_false, C64_tag_false).
19. `from_post`: an article without data whose `=yend` line lacks the final line break gives `no_end_found`, whereas with data it is only a warning.
20. With the `encoding` property set to `hex`, `from_post` throws a TypeError on every Buffer that is not empty (C93_hex); with `utf16le` it recognises no post of the
    library (C93_utf16_own) and throws on some data (C93_utf16_false). With `latin1` or `ascii` names come back changed, since they are written in UTF-8 whatever the property (C93_name_false).
21. A refused `YEncoder.encode` call uses up a part number (see 13), so a file cannot be completed after it.
22. The hardware CRC functions cast the length to `long` (crc_folding.cc:355, crc_folding_256.cc:210, crc_arm.cc:193).  Where `long` has 32 bits (64-bit Windows) a Buffer of
    2^31 to 2^32-1 bytes makes the x86 code call `memcpy` with a negative size, and from 2^32 bytes on only a prefix is hashed (C62_long_false).
23. `crc32_multiply_arm` (crc_arm.cc:64-77) relies on wrapping of a signed 64-bit sum, and `arm_crc_calc` and the slow paths read words through cast pointers
    that need not be aligned when the data is short; both are undefined by the language and taken as the processors do them.
24. The x86 CRC code reads whole aligned blocks, so up to 15 (31) bytes after the end of the data; it never crosses into a block without data bytes, and the result does not depend
    on them (`around` is arbitrary in C41).
25. encoder_neon.cc:18-53: with old compilers (GCC before 11 on AArch64, before 7 on ARMv7) `clz_n` calls `__builtin_clz` with 0 when a vector has no special character, which is
    formally undefined; the model uses what the instruction gives.
26. decoder_neon64.cc:135, decoder_neon.cc:175: the ARM `decodeChunk` loads 16 bytes where it needs 4, so up to 12 bytes after the end of the input, though never beyond the aligned 16 bytes
    that the input ends in (C18_neon_overread_false); the result does not depend on them (C38_end_memory).
27. `ISA_LEVEL_AVX2` contains the flag for LZCNT (common.h), so a native build for a processor with AVX2 but without LZCNT (VIA Eden X4), with the option `disable_avx256`,
    generates the tables of the SSE encoder in LZCNT order but reads them in BSR order (encoder_sse_base.h:69 against 107-118 and 517-524): the output is wrong (C67_tables_false).
28. SSE2 is used without asking on ia32; README:9 suggests that it is used when available (C67_sse2_false).
29. platform.cc asks for the leaves 7, 24h and 80000001h of CPUID without asking whether they exist; on Intel processors a leaf that does not exist gives the contents of another
    (C67_leaf7_false).
30. README says that AVX512-BW is used by dynamic dispatch.  Builds that are not native select VBMI2 or AVX2, never AVX512-BW.
31. With GCC the switch `-mavx2` of crc_folding_256.cc enables POPCNT, and Visual C++'s `/arch:AVX512` DQ and CD, none of which are asked for.  All processors on the market with the
    extensions asked for have them (`Coherent`).
32. `YENC_MAX_SIZE` (yencode.cc:29-42) wraps when `size_t` has 32 bits: `encode` of 715827883 bytes with line size 1 allocates 68 bytes (C68_32_false).
33. `crc32_combine` converts the length to `size_t` (yencode.cc:385), so with 32 bits it is taken modulo 2^32 (C68_combine_32_false).
34. `encodeIncr` with line size 1 returns column 2 after an escape, which the next call refuses (C14_line_size_one_false).
35. `maxSize` accepts the escape ratio `1 + 2^-52` (index.js:182): adding 1 rounds it to 2 (C69_ratio_range).  Sizes in headers above 2^53 are rounded, so that `from_post` does not notice
    a difference of one there (C64_large_false).
36. `bufferFind` for old Node.js takes the position modulo 2^32 (index.js:37, C71_large_false).
37. `from_post` takes everything between the first `=ybegin` and the last `=yend` as one post, so of two posts in one text neither is found (C72_two_posts_false).
38. `do_encode_generic` adds up to 16 to `int col` before it tests whether the line is full (encoder.cc:51-74), so for line sizes from 2147483642 on it overflows, which is undefined; if it
    wraps, the line break is missed (C11_never_ub_false, C74_overflow_false).  Ten bytes suffice, as the column is an argument.
39. The input position is a `long` (encoder.cc:33, encoder_common.h:39, decoder.cc:18,154, decoder_common.h:124), which has 32 bits on 64-bit Windows.  From 2 GiB on, the vectorised decoders
    read outside the Buffer, the portable plain decoder returns 0 without touching the output, and encoding short lines is undefined (C75_encode_false, C75_decode_false).
40. `encode` of a multi-part encoder counts the call (`this.part++`, index.js:388) and updates `this.crc` (index.js:397) before it has checked everything, so a refused call loses a part and can
    leave a wrong `crc` (C76).  Single-part encoders check first.
41. `multi_post` compares the declared size with the number of bytes of the UTF-8 form of string data; each piece is converted by itself, so a text cut inside a surrogate pair is spoilt (C77).
42. Damage to one byte of encoded data can lose everything after it for callers of `decodeChunk` (`=n` to `=y` at the start of a line), and can make a post unparsable; `decode` confines it to the place (C78, C79).
43. The README gives 2.188*10^-12 for an escape ratio exceeding 5 % in 1 KB; that is about the probability of 51 or more escapes in 1024 bytes (4.98 %), the one for 52 or more, computed outside Lean, is about 6*10^-13. C83 proves upper bounds only.
44. The results of `malloc` and `realloc` are not checked (yencode.cc:132-134, 221, 228, 250-252, 312-316): a refused allocation makes the coders write to NULL (C84_refused_false), and a refused `realloc` loses
    the block (C84_refused_shrink_false).
45. decoder_rvv.cc:230-234 may never end with registers of 512 bits and more (C86): besides the missing vector length (item on C38_rvv_wide_false), `nextCarry` (line 231) is not restricted to the elements that
    were incremented, so an element of all ones that nothing is carried into produces a carry in every round, even if line 229 added all elements (C86_hang_intended_false).
46. decoder.cc:64-68, 89-92 and the same code in `do_decode_end_scalar` read the byte after `=` a second time if it is a carriage return (C89_decode_dots_torn): if another thread changes it in between, it is decoded twice. Harmless for memory safety (C89_decode_dots), but the result is then not the decoding of any state the data had.
47. The vectorised encoders read the byte that ends a line again after the line was cut before it (encoder_sse_base.h:624, encoder_avx_base.h:436, encoder_neon.cc:513, encoder_rvv.cc:190). If another thread changes it in between from one that must be escaped to one that need not be, the line is one column short (C91_encode_short). The x86 rounds also load bytes twice (encoder_sse_base.h:593, 674, encoder_avx_base.h:388-389, 395, 402, 542-543, 549, 556): if the loads disagree, a critical byte may be written without being escaped, for example a bare carriage return (C91_encode_torn). Memory safety is not affected (C91_encode).
48. `YEncoder` reads the data twice, for `crc32` and for `encode` (index.js:396, 410, 427, 433). If another thread changes the data in between, the post carries a checksum that its data does not have (C92_post_mismatch).
49. `multi_post` does not check its arguments: with the line size `'128'` (a string) the native function reinterprets the string as a number (yencode.cc:55, index.js:410, 433; C96_line_false); a line size of `2^32 + l` gives lines of `l` characters (C96_line_wraps_false).
50. `from_post` uses `this.encoding` for the lines (index.js:238, 272) but `module.exports.encoding` for the searches, so `const {from_post} = require('yencode')` gives a function that throws on every post (C97_detached_false).
51. README.md:75 says that `minSize(length, line_size)` is `maxSize(length, line_size, 0) - 2`; the difference is 66 (C98_documented_false), the padding added by `maxSize` being left out. `minSize('1000', 128)` is the string `'100014'` (C98_min_string_false).
52. **The search for properties is quadratic** (C100_letters, C100_linear_false). `RE_YPROP` (index.js:10) is tried at every position of a header line and each try may read to the end of a run of letters and back. A post of 1 MB that consists of a `=ybegin` line of letters takes 10^12 steps in the algorithm of ECMA-262 (and in engines that backtrack), during which the thread does nothing else.
53. A line `=ypart ...` that gets into the data of a single-part post hides any damage to the rest: posts with a part line are not checked against `crc32`, and library posts without parts have no `pcrc32` (C79_insert_false).
54. What an argument of the wrong type does depends on the version of Node the module was built for: before 8 it is converted (yencode.cc:61-62, 84-85), from 8 on it is reinterpreted without a check (56-57). `decode(data, undefined)` and `encode(data, undefined)` are fine on the former and undefined on the latter (C106, C107).
55. On Node before 4.5 `toBuffer` is the `Buffer` constructor (index.js:5), for which a Number is a length: `multi_post(name, n, 1).encode(n)` posts `n` bytes of uninitialised memory (C108_number_single). Later versions throw.
56. On Node before 8 `encode` and `encodeTo` read the bytes of the data after `valueOf` of the other arguments has run, but the CRC functions read the CRCs before (C109_on_entry_false, C109_crc).
