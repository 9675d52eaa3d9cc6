# Design of the formal model of jpeg-encoder

Target: `/repo` (jpeg-encoder 0.6.1). Model, specifications and proofs: `/verif/lean`, Lean 4.33.0 + Mathlib.
The properties are in `properties.jsonl`, the theorems proving them in `MANIFEST.json`, attempts to break the theorems with
wrong programs in `seeded/LOG.jsonl` (see section 6).

## 1. Layout

* `Verif/Model/*.lean` — executable model, one file per Rust module; every definition cites file and lines.
* `Verif/Spec/*.lean` — specifications written from the English property, ITU-T T.81, JFIF, the ICC specification.
  They use no helper of the model, only its public vocabulary (encoder settings, colour types, buffers):
  * `Jpeg` a complete coefficient decoder for the T.81 processes in question (markers, DQT, DHT, SOF0/SOF2, DRI, SOS, restarts,
    Huffman decoding, spectral selection), `strict` (to the letter) or lenient (tolerates the empty band of C30);
  * `Huffman` Annex C code assignment, `Cost` length of coded data, `Symbols` the symbols of F.1.2, `StdHuffman` tables K.3 - K.6;
  * `Image` sampling rule and edge replication, `Formats` pixel formats and the contract of `ImageBuffer`;
  * `Dct` real-valued DCT and its inverse, `Quant` real-valued quantisation, `QuantTables` tables of Annex K and the IJG quality scaling;
  * `Output`, `File`, `Api` what the file for an image and a history of API calls has to contain.
* `Verif/Proofs/*.lean` — helper lemmas.
* `Verif/Props/*.lean` — the property theorems (`Cnn_...`), with examples showing that the hypotheses are met.
* `tools/` — generators of `properties.jsonl` and `MANIFEST.json`.

## 2. How the code is modelled

* **Integers.** Rust integers are `Int`/`Nat`; every arithmetic operation that could leave its type's range
  goes through a checked operation that takes the *platform* `pf`: if the exact result is in range it is
  returned, otherwise `pf.checked = true` (debug build) panics and `pf.checked = false` (release) wraps.
  `pf.wordBytes` (4 or 8) is `size_of::<usize>()`. Bytes at the API are `UInt8`, dimensions `UInt16`.
* **Panics** (index, assert, debug_assert, overflow) are explicit failures `Fail.panic`, encoding errors are
  `Fail.err e`, a loop whose fuel runs out is `Fail.diverge` (so a theorem that says "succeeds" also
  says "terminates").
* **The writer.** The code is generic over `W: JfifWrite`. A computation is a `Prog`: a tree whose
  nodes are `write_all(chunk)` calls with a continuation that receives the call's result. `?` is
  the monadic bind. Running a `Prog` against an arbitrary sink (any state, any response) gives the crash-point
  semantics; running it against a `Vec` gives the output bytes.
* **Bit buffer** is `(bit_buffer : Nat < 2^(8*wordBytes), free_bits : Int)` with the shifts of the code.
* **ImageBuffer** is a structure with the trait's four methods; `fill_buffers` is an arbitrary function, the
  contract (`Delivers`) is a separate predicate proved for the nine built-in formats, scalar and AVX2.
* **Image buffers with side effects**: in Model/Live.lean calls of `fill_buffers`, in Model/Free.lean calls of all four methods are effects of the
  program (any state, any answers); `C65_same_program`, `C79_constant`, `C79_pure` reduce constant answers to the model above.
* **Row buffers** are lists with a capacity; `push` beyond the capacity (which in the code would reallocate) and AVX2 stores beyond it
  (which would be undefined behaviour) are distinguished from ordinary execution (C27).
* **AVX2** intrinsics are modelled lane-wise on lists of 16 (`epi16`) / 8 (`epi32`) lanes with wrapping/saturating
  semantics as in Intel's documentation. Whether AVX2 is used is the parameter `simd`.
* **`io::Write`** in general (Model/IoWrite.lean): std's `write_all` loop over an arbitrary `write`, as a relation (a loop that is interrupted for ever has no result).
* **The file system** (Model/FileSystem.lean): paths with contents; a refused `File::create` is assumed to change nothing. A `&mut W` is a place in the caller's memory with the usual laws of reading and writing it.
* **`Encoder::new_file`** is `File` behind std's `BufWriter` (8 KiB buffer, `write_all` loop, `Interrupted`, short writes, flush on drop whose result is
  ignored), modelled from the std source; the operating system is an arbitrary list of answers to `write` calls.

## 3. Plan per property

| id | modelled by | proof |
|----|-------------|-------|
| C01-C03 | whole encoder vs. T.81 decoder | writer refines bit lists; canonical codes are prefix free; run-length/EXTEND inverse; induction over blocks, MCUs, restart intervals, scans; header parse |
| C04 | corollary of C01-C03 | both sides decode to the same specified coefficients |
| C05 | scan loop | induction over MCUs with the counter invariant |
| C06, C07 | bit writer | refinement to `stuff (pack (bits ++ ones))`, byte-wise carry lemma for the 0xFF test |
| C08, C09, C11 | Huffman construction | forest invariant (disjoint chains, Kraft sum 1, Fibonacci weight bound); K.3 loop keeps the Kraft sum |
| C10 | scan loop with optimised tables | false as documented: negation with a concrete image (`C10_…`), and the exact data condition under which it works (`C10_restarts_work`), which in debug builds is necessary too (`C10_debug_exact`: otherwise a panic), and in release builds as well (`C10_release_exact`: the call reports success in any case, the file decodes to the image exactly when the condition holds; proved by inverting the decoder on a file written without codes, Proofs/Loose); the other theorems keep the condition `CanOptimize.restarts` |
| C12, C13 | all of it | every checked operation shown in range => result independent of `pf` |
| C14 | `Prog` | induction on `Prog`: strict programs feed a prefix, for every sink |
| C15, C16 | length check | case analysis; C16 (32 bit overflow) refuted with witness, proved below 2^32 |
| C17, C18 | image buffers | two calls delivering the same samples run the same program, through the contract |
| C19 | colour conversion | integer/real arithmetic over all 2^24 (2^32) inputs |
| C20, C21, C22, C23 | quantisation | reciprocal multiplication = bounded error division (nonlinear arithmetic); tables compared with Annex K entry by entry and scaled as in IJG; parts that are false (entries above 255, rounding to nearest) refuted |
| C24 | fdct passes | interval bounds per pass by linear arithmetic |
| C25 | fdct passes vs real DCT | rotation identities, error propagation through both passes over the reals |
| C26 | AVX2 fdct and ycbcr | lane-wise equality where true; exact difference where not; refutation witness |
| C27 | row buffers with capacity | loop invariant |
| C28, C37 | API functions | case analysis, induction over the history of calls |
| C29 | geometry | index arithmetic, clamped coordinates |
| C30 | bands | arithmetic over 2..64; false above 33 (witness) |
| C31, C32 | headers | decoder run on the header bytes |
| C33, C34 | segments | induction over segments/chunks; documented limits refuted |
| C35, C36, C38 | headers | computation |
| C39, C40 | coding tables | bit arithmetic, permutation by geometry |
| C41-C43 | C25 + C22 composed over the whole file | real-valued error bounds; the inverse DCT is an isometry |
| C44 | built-in Huffman tables | equality with K.3 - K.6 |
| C45 | `new_file` | induction over the answers of the operating system |
| C46 | Huffman construction | exchange argument: merging two least weights is optimal; invariant of the merge loop; comparison with every other table |
| C47 | C24 for constant blocks | exact values of fdct on constant blocks, reconstruction |
| C48 | locality | blocks depend on their own samples only |
| C49 | RGB pixels to the file and back | error of the colour conversion (exact linear arithmetic) combined with C43 by Jensen's inequality |
| C50 | grey pixels | conversion of grey, transform of a block of zeros, comparison with the Luma run |
| C51 | images in a stream | reader of markers and lengths (`Spec/Stream`), no structure of the file is assumed: a program logic (`Proofs/Framing`, `Proofs/AnyFraming`) follows what the reader makes of the output while it is written; see C85 |
| C52 | size of the file | code lengths and magnitudes bound the bits of a block; number of blocks and restart intervals per scan |
| C53 | no undefined behaviour | the model reports out-of-bounds raw reads and writes of the AVX2 code as `panic .ub`; a logic of admitted failures (`ROnly`, `WM.Only`) shows that nothing else fails that way, for any writer |
| C54 | termination | the model reports exhausted fuel as `diverge`; the same logic shows it is never reached; the merge and limit loops of `new_optimized` by invariants that survive counters wrapping around (the Kraft sum over all symbols stays an integer). The width, height and color type of an `ImageBuffer` are constants in the model |
| C55 | file with and without `simd` | the decoded files are compared coefficient by coefficient: C29 gives the samples of each block, C26 the difference of the two forward DCTs, and rounding division is monotone |
| C56 | sections of the file | the decoder lists the markers it meets; the list is computed from the description of the file |
| C57 | errors | the logic of admitted failures (C53) with the errors of the writer as the admitted errors; messages modelled from `Display` |
| C58 | order of configuration calls | every field of the encoder is determined by the latest calls and the segments |
| C59 | metadata | the program is the leading part followed by a program that does not depend on density and segments; equality of both encoders' rest (C58) |
| C60 | quality | the tables built from both qualities are equal, everything else does not use the quality |
| C61 | RGB error | C42 for the three components, inverse of the colour conversion, Minkowski inequality |
| C62 | rows | the programs of both buffers are equal: every request goes through the clamped row number |
| C63 | long restart interval | closed form of the file (C05): one interval per scan |
| C64 | release = debug without its checks | simulation relation between the programs of both builds, function by function (`Proofs/Refine.lean`) |
| C65 | rows requested in order, buffers with state | `Model/Live.lean`: programs with two effects (write, fill); answering requests by a function gives the programs of `Model/Encoder.lean`; a Hoare logic that counts requests (`Proofs/Live.lean`) |
| C66 | contents of the row buffers at a request | the same logic with the buffer lengths as invariant |
| C67 | output while rows are read (baseline), none in the other modes | the loop over MCU rows is split at row r; the same program runs for the image cut at row n; the rest of the bit buffer is at most one word (stuffed: two) |
| C68 | Ok means a complete file for every image buffer | partial correctness (`LM.Yields`) of the effectful program (Model/Live.lean): blocks read from any row buffers have bounded coefficients, every step that succeeds wrote what the file format wants; tables that were built once exist on every platform; strictness transfers the result to any writer |
| C69 | Ok in a debug build means a correct file | inversion of successful runs (Proofs/Checked.lean, DebugWorks.lean): the `debug_assert!` in `get_for_value` shows that every symbol at a restart has a code, the overflow checks of the counters that there were fewer than 2^32-1 symbols, the allocation that the image fits; with these facts the theorems behind C01-C03 apply |
| C70 | files cut between two scans | `Spec.preview`: the decoder of Spec/Jpeg without the condition that all coefficients have been coded; the states the decoder goes through (`Steps`, the same lemmas as for the whole file) |
| C71 | inks of CMYK files | `Spec.adobeInk` (the Adobe convention as decoders implement it), from C42 (error of the planes) with the color conversion of C61; with subsampling from C81 |
| C72 | two runs | from C29 (which samples a block consists of) and the uniqueness of `IsCoef` |
| C73 | damaged files | `Spec.conceal`: the decoder of Spec/Jpeg which leaves out restart intervals it cannot decode; structure of every decodable file (`decode_damage`: the splitting of scan data at RST markers, resynchronisation), C05, C56 |
| C74 | two runs with the same coefficients | induction over units and intervals: the bits of a scan depend only on the coefficients in its band and blocks; optimised tables: `blocks_same` |
| C75 | encode, decode, encode | Parseval (rounding 64 samples moves no coefficient by more than 4), C41 (error of transform and quantiser), C74 |
| C76 | two encodes; decoded means | linear algebra on the closed form of both transforms: a constant cancels in every AC output exactly (integers); DC output is the plain sum; the exact inverse transform has the mean DC/8 |
| C77 | encode, decode | both passes of the transform map eight equal inputs to (8x, 0, ..., 0); zero is quantised to zero; inverse transform without vertical (horizontal) frequencies |
| C78 | `impl JfifWrite for W: io::Write` with std's `write_all` loop as a big-step relation over an arbitrary `write` | induction over the loop and the program; the encoder stops at the first error (C13) |
| C79 | Model/Free.lean: `width`, `height`, `get_jpeg_color_type` and `fill_buffers` are effects asked where the code asks | predicate on all leaves of the program (as for C53, C54, C57); constant answers: equality of programs with Model/Live.lean; witness for the false part |
| C80 | Model/Fuzz.lean: the six targets of fuzz/fuzz_targets, with `unwrap` | an instance of `Supported` for each target: the size of a slice bounds the memory, the restart interval is never set, at most 146 000 blocks with optimised tables; then C32 |
| C81 | nothing new | C42 for each of the blocks of an MCU, a reindexing of the pixels of an MCU by block and position, Minkowski for the three parts of the error (`jensen4` style), C29 for the sample positions |
| C82 | nothing new | both files are `fileBytes` of the same component, coefficients, tables and scans: the modes of both encoders give the same list of scans for one component |
| C83 | nothing new | C51 (end of an image, truncation) with C14, C45 and C78 (writers); a lemma that what the decoder of `Spec/Jpeg.lean` accepts is a complete image for the reader of `Spec/Stream.lean`, which only skips |
| C84 | nothing new | a relation between programs (`Prog.Cut`: the same calls of the writer, until one stops with a panic) that all functions which use the image buffer preserve; the EOI marker comes after the last call of the image buffer; then C83 |
| C85 | nothing new (`Model/Free`) | triples {state of the output} computation {state of the output, or unfinished on failure}, where the states (at a marker, after a marker, n bytes to go in a segment, in a scan) say what the reader of `Spec/Stream` will make of any continuation; loops by invariants, all answers of the image buffer universally quantified; no condition on tables or coefficients |
| C86 | nothing new (`Model/Free`); counters around the writer and the image buffer in `Spec/Resources` | a cost logic (`Proofs/Cost`, `Proofs/CostAll`): every path of the program, also failing ones, is charged 1 for a bit of entropy coded data (in the bit buffer or written) and 4 for a byte of a header, so 4 times the bytes written are never more than the charge (a byte with stuffing is 8 bits and at most two bytes); the charges of code words need that every table, also an optimised one, has sizes of at most 16, and the counts of blocks and rows hold for any contents of the rows |
| C87 | nothing new | the samples of each block are the same (`Spec.Continues`, clamping in `sampleAt`), hence the coefficients, the optimised tables and, as the layout of the scans is the same, the scans; the size occurs only in the SOF segment |
| C88 | `refSink` (`Model/FileSystem`): the impl of `JfifWrite` for `&mut W` over any place of the caller's memory | induction over the program of calls |
| C89 | `FileSystem.create`, `encodeToPath` (`Model/FileSystem`): `new_file` with the file system around it | from C45 and C15; histories by induction from the end |
| C90 | nothing new | the value before quantising is the same (C29); `quantAbs` for two divisors: error bounds (C22) for "at most one", thresholds `firstAt` of neighbouring divisors up to 69 (kernel evaluation of 68 divisors, all values below 8193 by monotonicity) for exactness; witness at 70 |
| C91 | nothing new | every coefficient as a function of the table entry in the file and the samples (C29, C21, C32), for two encoders |
| C92 | nothing new; counts of coefficients in `Spec/Content` | the bits of a block by its nonzero coefficients (induction over the symbols), summed over the units of each scan; bands of a block add up to at most the whole block; the sum over MCUs is re-indexed as a sum over blocks |
| C93 | nothing new; sizes in `Spec/ExactSize` | the lengths of all segments; the bits of a restart interval by induction over its units, split by component (`filter`), and the byte stuffing counted exactly |
| C94 | nothing new | C93 for both files: the bits of all scans are regrouped by table (C46's symbol lists), every table loses at most 15 bits against the standard one (C46), the DHT segments are smaller because the symbols are among those of the standard tables, scan headers differ by at most 24 bytes |
| C95 | nothing new | C93 for both files; the tables are equal because `optimizeIf` commutes with changing the restart interval; splitting a restart interval in two changes only the first DC symbol of every component (induction over the DC values), no symbol has more than 31 bits, and rounding up to bytes costs at most 7 bits per interval |
| C96 | the live programs of C65 | the requests of the live program come with room for a line in every row buffer (invariant: length and capacity of the buffers), so two image buffers delivering the same samples answer alike; programs closed by functions that agree on the requests made are equal |
| C97 | nothing new | C42 for both calls with the same decoded file, (a - b)² ≤ 2 (r - a)² + 2 (r - b)²; C98 for both calls and the triangle inequality; at quality 100 a sample moves by less than 7 |
| C98 | nothing new | C41 and the inverse DCT of the error (orthogonality), triangle inequality with the weights of the basis functions; their sum is (1 + Σ √2 cos(rπ/16))² / 8 < 6.981 at every place; colours by C49's ycc_inverse |
| C99 | decoders as relations between the exact value and the value they make | C98's bound for the exact value, clamping moves nothing away from a value in 0..255; C49's ycc_inverse for the colours |
| C100 | nothing new; Spec/Entropy.lean defines the information of a sequence | below: Gibbs' inequality (log x ≤ x - 1) with Kraft's inequality for well formed tables; above: C46 (the lengths found are the best that fulfil Kraft's inequality) applied to Shannon's lengths for the statistics with the reserved code point; for all files from the exact size (C93), for which the symbols of all restart intervals are sorted by tables (Spec/AnyEntropy.lean) |

Nothing in the list is considered inexpressible. Not modelled: see section 5.

## 4. Trusted base

* Lean 4.33.0's kernel. All theorems depend on at most `propext`, `Classical.choice`, `Quot.sound` (checked by `#print axioms`
  during development and by `vcheck`). No own axioms, no compiled evaluation.
* The reading of `/repo` recorded in the comments of `Verif/Model`: that the listed lines do what the definition says.
* The reading of T.81, JFIF, Adobe and ICC formats recorded in `Verif/Spec`.
* The meaning of Rust, std (`Vec`, `BufWriter`, `write_all`, `chunks`) and of the AVX2 intrinsics as described in section 2.

Modelled, function by function: `encoder.rs` (everything but the `Debug`/`Clone` derives; `Encoder::new`, `new_file`, all setters and getters, `add_app_segment`,
`add_icc_profile`, `encode`, `encode_image`, `encode_image_internal`, `init_components`, `get_max_sampling_size`, `write_frame_header`, `init_rows`, the three
encoding paths, `encode_blocks`, `optimize_huffman_table`, `get_block`, `ceil_div`, `get_num_bits`, `Operations`), `writer.rs`, `huffman.rs`, `quantization.rs`,
`fdct.rs`, `image_buffer.rs`, `marker.rs`, `avx2/fdct.rs`, `avx2/ycbcr.rs`, the conversion `From<io::Error>` and the error values of `error.rs`.

### Assumptions that occur in theorems

* `pf.Valid`: 32 or 64 bit words (and both build profiles).
* `Configured pf q calls e`: `e` results from `Encoder::new` and any list of API calls (those that return an error change nothing).
* `Delivers image P`: a custom `ImageBuffer` appends one value per pixel and component and does not depend on earlier contents; proved for the built-in ones.
* `SliceOk`: slices are not longer than `isize::MAX` (guaranteed by Rust).
* `Supported`: non-empty image; on 32 bit targets less than 2^30 samples per component after padding to whole MCUs (exact, `C12_memory_exact`) unless baseline (the code keeps all coefficients in memory);
  with optimised Huffman tables `CanOptimize`: no code is missing after a restart (C10) and the AC symbols of each table are within the bounds of C11 (fewer than
  fib 35 - 1, or fewer than 2^32 - 1 and at most 32 different ones or no best code of more than 32 bits; data-dependent, always true below 146466 blocks per table
  and for images of a single colour).
* `EightBit`: custom quantisation table entries of at most 255 where the file is decoded (larger ones do not fit the 8 bit table in the file, C21).

`Verif/Conformance.lean` runs the repository's own unit tests (color conversion, forward DCT vectors from libjpeg, quantiser, sampling factors, the one-pixel
image with optimised tables) on the model: tests of the model against values the real code is known to produce, not proofs.

`Verif/Spec/Sample.lean` and `Verif/RealFile.lean` do the same with a JPEG file from outside (CPython's `python.jpg`, 16 x 16, 4:2:0, written by another encoder): the decoder of
`Verif/Spec` reads it (and its coefficients give the picture of `python.ppm`, luma within 7.5 of 255 levels); the model's file for a block of that picture at quality 92 has the same
quantisation tables and the same luma coefficients but for 1 of 64, which differs by one. So neither the decoder nor the model is right only about each other.

## 5. Not modelled

* Allocation failure and the capacity limit of `Vec` (`isize::MAX`) except in `encode_blocks`.
* Errors of the writer and of the file system are known by their message only; directories, links and other processes that use the same file.
* CPU feature detection (both outcomes are modelled, the choice is a parameter).
* The benchmark crate.

## 6. Testing the theorems against wrong programs

`seeded/LOG.jsonl` has one line per attempt: the model is edited as a realistic bug would change the program, everything is rebuilt, and the failing theorems
are listed; `concrete_counterexamples` names the small test images for which the edited program really breaks claims (decoded with
`Spec.Jpeg`, run outside the proofs), so that "claim false, theorem still proved" would be visible. Edits that survived led to the theorems listed under
`theorems_tightened` or are explained in `note` (the edit does not change the behaviour, or changes nothing a property speaks about).

## 7. Findings about the code

Each is a theorem with a concrete witness unless stated otherwise.

* C10: optimised Huffman tables + restart interval: the symbols of DC values directly after a restart are not counted; a missing code is written as zero bits and the
  file does not decode to the image.
* C11: `optimize` indexes `bits[33]` out of bounds (panic) when frequencies grow like Fibonacci numbers (33 symbols, total of 9227464).
* C16: on 32 bit targets `width * height * bytes_per_pixel` is computed in `usize`: short data may pass the check.
* C21: custom table entries above 255 are truncated in the file. The fuzz target for custom tables makes such files and does not notice (`C80_custom_q_table_undecodable`).
* C22: division by reciprocal multiplication is not always rounding to nearest (exact for powers of two).
* C90: raising the quality can remove a coefficient: step 70 rounds 34.75 up, step 69 rounds it down (`C90_never_less_false`).
* C26: the AVX2 DCT differs from the scalar one.
* C30: with 34 and more progressive scans the first AC scan has an empty band (`Ss = 1, Se = 0`), which T.81 does not allow.
* C33/C34: documented size limits are not the ones enforced.
* C45: `new_file` never flushes its `BufWriter` explicitly: `encode` can return `Ok` although the end of the file could not be written.
* C12: on 32 bit targets `encode_blocks` (progressive or optimised encoding) panics with a capacity overflow for images of 2^30 pixels and more, after the leading part of the file was written (`C12_memory_false`).
* C34: `add_icc_profile` called twice yields chunks that cannot be reassembled (`C34_two_profiles_false`).
* C89: `new_file` empties an existing file before the input is checked: a rejected `encode` call destroys it (`C89_keeps_false`).
* C79: an `ImageBuffer` whose dimensions change between calls gives `Ok` and a file that does not decode (`C79_fickle_false`); the code asks for them up to four times.
