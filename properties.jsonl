{"id": "C01", "title": "Baseline output decodes to exactly the quantised coefficients", "statement": "For a non-progressive encode with default Huffman tables and a sampling factor of at most 2x2, the bytes written by encode/encode_image form a complete JPEG stream which a decoder written from ITU-T T.81 parses without error, and whose decoded coefficient blocks are, block for block and in the right position, the quantised forward DCT of the image's component planes.", "quantifier": "every image buffer honouring the ImageBuffer contract, every non-zero width/height, quality, quantisation tables, density, app segments and restart interval", "why_tests_cant": "An entropy coder has no finite set of representative inputs: every combination of run lengths, magnitudes, bit alignments, 0xFF bytes and restarts must round-trip.", "anchors": ["src/encoder.rs:encode_image_internal", "src/encoder.rs:encode_image_interleaved", "src/writer.rs:write_block"]}
{"id": "C02", "title": "Sequential (one scan per component) output decodes to exactly the quantised coefficients", "statement": "For a non-progressive encode that uses one scan per component (sampling factors of 4, or optimised Huffman tables), a T.81 decoder recovers exactly the quantised coefficients of every component. With optimised tables this is claimed only when the symbols after restarts are among those without restarts (see C10) and the AC symbols of a table are within the bounds of C11 (a block has at most 63 of them, and at most one per nonzero AC coefficient plus one per scan plus 3).", "quantifier": "every well-behaved image, all settings", "why_tests_cant": "Same as C01; additionally the optimised tables are a function of the image.", "anchors": ["src/encoder.rs:encode_image_sequential", "src/encoder.rs:encode_blocks"]}
{"id": "C03", "title": "Progressive output decodes to exactly the quantised coefficients", "statement": "For a progressive encode the DC scans followed by the AC scans let a T.81 decoder reassemble exactly the quantised coefficients of every block of every component (optimised tables: as in C02).", "quantifier": "every well-behaved image, every accepted scan count, restart interval, sampling factor and table mode", "why_tests_cant": "All scan counts, band boundaries and block contents have to work together.", "anchors": ["src/encoder.rs:encode_image_progressive", "src/writer.rs:write_ac_block", "src/writer.rs:write_dc"]}
{"id": "C04", "title": "Encoding mode does not change the image", "statement": "Progressive on/off, the number of scans, optimised Huffman tables and the restart interval change only the entropy coding: two encodes of the same image that differ only in these settings decode to the same coefficients for every block inside the image.", "quantifier": "every pair of settings (outside the failing combinations of C10, C11 and C30) and every well-behaved image", "why_tests_cant": "A comparison of two encoders over all images and settings.", "anchors": ["src/encoder.rs:encode_image_internal", "src/encoder.rs:encode_blocks"]}
{"id": "C05", "title": "Restart markers", "statement": "With restart interval n > 0 every scan contains a restart marker exactly after each n MCUs except at the end of the scan, numbered RST0..RST7 cyclically from RST0, the DC predictors are reset there, and a DRI segment announces n; with interval 0 there is neither DRI nor any RST marker.", "quantifier": "every interval 1..65535, every number of MCUs, every mode", "why_tests_cant": "Needs every interval/size combination, including wrap-around of the 3 bit counter.", "anchors": ["src/encoder.rs:set_restart_interval", "src/encoder.rs:encode_image_interleaved", "src/writer.rs:write_dri"]}
{"id": "C06", "title": "Entropy coded data never contains a false marker", "statement": "Inside a scan every 0xFF byte is followed by 0x00 or is the first byte of an intended restart marker.", "quantifier": "every sequence of bit writes", "why_tests_cant": "The fast path inspects 8 bytes at a time with carry arithmetic; all 2^64 words matter.", "anchors": ["src/writer.rs:write_bit_buffer", "src/writer.rs:flush_byte_from_bit_buffer"]}
{"id": "C07", "title": "Bit packing: order, alignment and padding", "statement": "The bits handed to the bit writer appear in order, most significant first, and before every marker the data is padded with one-bits to the next byte boundary (no extra byte when already aligned).", "quantifier": "every sequence of bit writes with sizes up to 31 bits, every alignment", "why_tests_cant": "All alignments and buffer flush positions.", "anchors": ["src/writer.rs:write_bits", "src/writer.rs:finalize_bit_buffer", "src/writer.rs:flush_bit_buffer"]}
{"id": "C08", "title": "Huffman tables written to the file are valid prefix codes", "statement": "Every Huffman table that is written (default or optimised) has code lengths 1..16, as many values as the lengths announce, distinct values, prefix-free codes and does not use the all-ones code; a decoder that rebuilds the codes from the DHT segment as in Annex C gets the codes the encoder used.", "quantifier": "every symbol frequency vector with 1 to 254 used symbols within the bounds of C11; all files", "why_tests_cant": "Quantifies over all frequency vectors.", "anchors": ["src/huffman.rs:new_optimized", "src/huffman.rs:create_lookup_table", "src/writer.rs:write_huffman_segment"]}
{"id": "C09", "title": "Optimised tables contain a code for every symbol of the image", "statement": "With optimised Huffman tables, no restarts and AC symbols within the bounds of C11 every symbol that is emitted has a non-empty code: the values of a table are exactly the symbols of the scans that use it.", "quantifier": "every image and mode", "why_tests_cant": "Symbol statistics and the emission code are separate copies of the same logic.", "anchors": ["src/encoder.rs:optimize_huffman_table", "src/writer.rs:write_ac_block"]}
{"id": "C10", "title": "Optimised tables together with restart intervals", "statement": "With optimised tables together with a restart interval it is not true that every emitted symbol has a code (a defect of the code): the statistics do not reset the DC prediction at restarts. There is an image and a configuration for which debug builds panic and release builds write a file that no decoder can decode. Whenever the category of the first DC value of every restart interval is also the category of a difference of successive DC values of a component using the same table (always true without restarts inside a component, and for images of a single colour), the file is correct.", "quantifier": "images, restart intervals", "why_tests_cant": "The existing tests only use restart intervals without optimised tables.", "anchors": ["src/encoder.rs:optimize_huffman_table"]}
{"id": "C11", "title": "Building optimised tables terminates and does not panic", "statement": "Building the optimised Huffman tables terminates without panic whenever 1 to 254 of the 256 symbols are used and either the total number of symbols is below fib(35)-1 = 9227464, or the total fits into u32 and either at most 32 different symbols are used or no optimal prefix code for the symbols and one reserved code point has a code of more than 32 bits. Both bounds are sharp: with 33 symbols and a total of 9227464, Fibonacci frequencies give a code size of 33 and an index panic.", "quantifier": "every frequency vector", "why_tests_cant": "The failing vectors need millions of symbols in a Fibonacci pattern; termination is not testable.", "anchors": ["src/huffman.rs:new_optimized"]}
{"id": "C12", "title": "No panic and no arithmetic overflow", "statement": "encode and encode_image do not panic, index out of bounds or overflow an integer for any image (default tables, any mode; optimised tables within the bounds of C11 and without restart interval).", "quantifier": "every image honouring the contract, all settings, debug and release builds, 32 and 64 bit (where the image size fits the address space)", "why_tests_cant": "Overflow of fixed-width DCT/quantiser/bit-buffer arithmetic happens only for extreme blocks.", "anchors": ["src/encoder.rs", "src/fdct.rs", "src/quantization.rs", "src/writer.rs"]}
{"id": "C13", "title": "Output does not depend on the build profile or the word size", "statement": "Debug and release builds, 32 bit and 64 bit targets write exactly the same bytes.", "quantifier": "every image and settings as in C12", "why_tests_cant": "Needs a proof that wrapping/overflow and the buffer width are never observable.", "anchors": ["src/writer.rs:BUFFER_SIZE", "src/writer.rs:write_bits"]}
{"id": "C14", "title": "A failing writer stops the encoder at once and leaves a prefix", "statement": "When the n-th write of the underlying writer fails, encode returns that error, performs no further write, and the bytes written before are a prefix of the complete output.", "quantifier": "every writer behaviour, every failure point, every image and settings", "why_tests_cant": "Every write call is a crash point.", "anchors": ["src/writer.rs:JfifWrite", "src/encoder.rs:encode_image_internal"]}
{"id": "C15", "title": "Invalid input is rejected before anything is written", "statement": "encode with a data slice shorter than width*height*bytes-per-pixel returns BadImageData with both lengths, and a zero width or height returns ZeroImageDimensions; in both cases nothing is written. All other calls are not rejected by these checks (64 bit).", "quantifier": "every slice length, width, height, color type", "why_tests_cant": "All sizes including products near overflow.", "anchors": ["src/encoder.rs:encode"]}
{"id": "C16", "title": "Length check on 32 bit targets", "statement": "On 32 bit targets a too-short slice is rejected as in C15 whenever width*height*bytes-per-pixel < 2^32. Beyond that the rejection fails (a defect of the code): release builds compute the required length with wrapping arithmetic, and even an empty slice passes the check for 32768x32768 RGBA; debug builds panic for all these sizes.", "quantifier": "every width, height, color type on a 32 bit target", "why_tests_cant": "Needs dimensions whose product wraps.", "anchors": ["src/encoder.rs:encode"]}
{"id": "C17", "title": "Only the documented part of the data is used", "statement": "The output depends only on the first width*height*bytes-per-pixel bytes of data; trailing bytes are ignored. For RGBA/BGRA the alpha bytes are ignored: the output equals that of the RGB encode of the same colours; BGR(A) equals RGB(A) with swapped channels.", "quantifier": "every image and settings", "why_tests_cant": "Relational property over pairs of inputs.", "anchors": ["src/encoder.rs:encode", "src/image_buffer.rs:ycbcr_image"]}
{"id": "C18", "title": "Custom ImageBuffer equals built-in formats", "statement": "Two image buffers that deliver the same samples produce identical output, whatever their implementation; in particular an ImageBuffer following the documented RGB example equals encode with ColorType::Rgb.", "quantifier": "every pair of image buffers with equal planes", "why_tests_cant": "Relational property over all implementations of a trait.", "anchors": ["src/image_buffer.rs:ImageBuffer", "src/encoder.rs:encode_image"]}
{"id": "C19", "title": "Colour conversion is accurate and never wraps", "statement": "rgb_to_ycbcr never overflows or truncates, each component is within 0.51 of the documented real-number formula, and grey maps to (v,128,128). CMYK samples are stored inverted and cmyk_to_ycck converts CMY like RGB and inverts K.", "quantifier": "all 2^24 colours (2^32 CMYK)", "why_tests_cant": "Testing 2^24 inputs is possible but not done; the accuracy claim is about real numbers.", "anchors": ["src/image_buffer.rs:rgb_to_ycbcr", "src/image_buffer.rs:cmyk_to_ycck", "src/image_buffer.rs:CmykImage"]}
{"id": "C20", "title": "Quantisation tables follow the quality setting", "statement": "The DQT tables in the file are, in zig-zag order, the published tables the documentation names for the selected types (T.81 Annex K, the mozjpeg tables) scaled by the IJG quality rule, or the custom values limited to 1..2048 (file: custom entries up to 255). For built-in tables every entry in effect is in 1..255, quality outside 1..100 behaves as clamped, a higher quality never increases an entry, quality 100 gives all ones and quality 50 the base table (limited to 255).", "quantifier": "every quality, table type and position", "why_tests_cant": "All 256 qualities x 9 tables x 2 x 64 entries, plus the monotonicity relation.", "anchors": ["src/quantization.rs:get_with_quality", "src/quantization.rs:new_with_quality"]}
{"id": "C21", "title": "The quantisation table in the file is the one used for quantising", "statement": "The k-th DQT entry is the divisor used for the k-th zig-zag coefficient, in the same table slot the frame header assigns to the component. Holds for built-in tables and custom tables with entries <= 255; FALSE for custom tables with entries > 255: the file contains the value modulo 256. If none of the entries in effect is a multiple of 256 the file can be decoded, with the right coefficients but the wrong tables; otherwise (even if the table is not used by any component) encode succeeds and the file cannot be decoded.", "quantifier": "every table, quality, position", "why_tests_cant": "All custom tables.", "anchors": ["src/writer.rs:write_quantization_segment", "src/quantization.rs:get_user_table", "src/quantization.rs:get"]}
{"id": "C22", "title": "Quantisation error bound", "statement": "For every coefficient that can occur, quantised value times divisor is within 2/3 of a quantisation step of the coefficient (an exact nearest rounding is FALSE of the code), and it is exact nearest rounding when the divisor is a power of two (e.g. quality 100) or the coefficient is below 20.875 (sharp). In general the error is at most half a step plus 1/8 plus step / 8192 of (the coefficient plus half a step).", "quantifier": "every table entry 1..2048 and every coefficient in [-8192, 8192]", "why_tests_cant": "16 million pairs, and the reciprocal trick is only tested for divisor 8.", "anchors": ["src/quantization.rs:compute_reciprocal", "src/quantization.rs:quantize"]}
{"id": "C23", "title": "Quantisation is odd and monotone", "statement": "Quantising -x gives minus the quantised x, and a larger coefficient never quantises to a smaller value.", "quantifier": "every divisor and coefficient", "why_tests_cant": "All pairs of coefficients.", "anchors": ["src/quantization.rs:quantize"]}
{"id": "C24", "title": "Forward DCT range and exact DC", "statement": "For every block of 8 bit samples the forward DCT does not overflow its 32 bit intermediates or 16 bit results, the DC result is exactly the sum of the samples, AC results are at most 8*1020 in magnitude, and a constant block has no AC.", "quantifier": "all 256^64 sample blocks", "why_tests_cant": "256^64 blocks.", "anchors": ["src/fdct.rs:fdct"]}
{"id": "C25", "title": "Forward DCT accuracy", "statement": "Every output of the forward DCT, divided by its scale 8, is within 2.75/8 of the real-valued two-dimensional DCT of T.81 A.3.3 (3.75/8 in the AVX2 version).", "quantifier": "all sample blocks, all 64 coefficients", "why_tests_cant": "Claim about real cosines over all blocks.", "anchors": ["src/fdct.rs:fdct"]}
{"id": "C26", "title": "SIMD results equal scalar results", "statement": "The AVX2 colour conversion gives exactly the scalar result. The AVX2 forward DCT gives the scalar result except possibly in rows 0 and 4 at odd columns, where it is the scalar result or one less; it does differ for some sample block (a defect of the code: the rounding constant is missing in these lanes).", "quantifier": "all sample blocks, all pixel rows", "why_tests_cant": "256^64 blocks; existing tests tolerate differences.", "anchors": ["src/avx2/fdct.rs:fdct_avx2", "src/avx2/ycbcr.rs:fill_buffers_avx2"]}
{"id": "C27", "title": "SIMD buffer writes stay in the allocated capacity", "statement": "Whenever the AVX2 colour conversion extends a row buffer in place, current length plus width is at most the capacity that was reserved for it.", "quantifier": "every image size, sampling factor, mode", "why_tests_cant": "Memory safety of unsafe code for every size.", "anchors": ["src/avx2/ycbcr.rs:fill_buffers_avx2", "src/encoder.rs:init_rows"]}
{"id": "C28", "title": "Sampling factor API", "statement": "from_factors returns a variant exactly for the 8 supported pairs and the variant's factors are the given ones; the R_* aliases produce byte-identical output to the F_* variants they name.", "quantifier": "all u8 pairs; every image", "why_tests_cant": "Second half quantifies over images.", "anchors": ["src/encoder.rs:SamplingFactor"]}
{"id": "C29", "title": "Sampling positions and edge replication", "statement": "The sample at (x,y) of block (bx,by) of a component with subsampling (sx,sy) is the component's pixel at ((8bx+x)*sx, (8by+y)*sy) clamped to the image.", "quantifier": "every image size, sampling factor, mode, block and position", "why_tests_cant": "Every size modulo the MCU size.", "anchors": ["src/encoder.rs:get_block", "src/encoder.rs:encode_image_interleaved", "src/encoder.rs:encode_blocks"]}
{"id": "C30", "title": "Progressive scans partition the coefficients", "statement": "For every accepted scan count n the file has one DC scan and n-1 AC scans per component whose bands are consecutive and cover 1..63 exactly once. FALSE of the code for n >= 34: the first AC scan is an empty band with start 1 and end 0, which T.81 forbids.", "quantifier": "every scan count 2..64", "why_tests_cant": "Only the default of 4 scans is tested.", "anchors": ["src/encoder.rs:set_progressive_scans", "src/encoder.rs:encode_image_progressive"]}
{"id": "C31", "title": "Number of MCUs per scan is what the header implies", "statement": "The number of blocks coded in every scan equals the number T.81 A.2 derives from the frame header.", "quantifier": "every size and sampling factor", "why_tests_cant": "Every size.", "anchors": ["src/encoder.rs:encode_blocks", "src/encoder.rs:encode_image_interleaved"]}
{"id": "C32", "title": "Frame header", "statement": "The file starts with SOI, ends with EOI, and contains exactly one frame header which is SOF2 iff progressive encoding is enabled and states 8 bit precision, the image's width and height, and one entry per component with the configured sampling factors.", "quantifier": "every image and settings", "why_tests_cant": "Every settings combination.", "anchors": ["src/writer.rs:write_frame_header", "src/encoder.rs:init_components"]}
{"id": "C33", "title": "App segments are preserved", "statement": "Every accepted app segment appears in the file in insertion order with its number and exact payload, after the JFIF header; add_app_segment accepts exactly numbers 1..15 with at most 65533 bytes, reports the documented errors otherwise, and a rejected call changes nothing. (The documentation says 2^16-2 = 65534 bytes: FALSE of the code.)", "quantifier": "every sequence of add_app_segment calls and payloads", "why_tests_cant": "Every payload and history.", "anchors": ["src/encoder.rs:add_app_segment", "src/writer.rs:write_segment"]}
{"id": "C34", "title": "ICC profiles are preserved", "statement": "add_icc_profile of non-empty data adds APP2 segments numbered 1..n of n whose payloads concatenate to the profile; it never fails for up to 254 chunks and fails with IccTooLarge, changing nothing, above. (The documented limit of 16,707,345 bytes is FALSE of the code: only 16,641,826 are accepted.)", "quantifier": "every profile length and content", "why_tests_cant": "Lengths of many megabytes at chunk boundaries.", "anchors": ["src/encoder.rs:add_icc_profile"]}
{"id": "C35", "title": "JFIF density header", "statement": "The file contains, directly after SOI, a JFIF APP0 segment from which the configured density unit and values can be read back.", "quantifier": "every density", "why_tests_cant": "All 2^33 densities.", "anchors": ["src/writer.rs:write_header"]}
{"id": "C36", "title": "Adobe colour transform marker", "statement": "An Adobe APP14 segment is written iff the image is encoded as CMYK (transform 0) or YCCK (transform 2); number and order of components match the color type.", "quantifier": "every color type and settings", "why_tests_cant": "Combined with all settings.", "anchors": ["src/encoder.rs:encode_image_internal", "src/encoder.rs:init_components"]}
{"id": "C37", "title": "Configuration getters reflect the last setter", "statement": "After any sequence of setter calls each getter returns the value of the last relevant call (restart interval 0 means None, progressive(true) means 4 scans, default sampling 2x2 below quality 90 and 1x1 otherwise); set_progressive_scans panics exactly outside 2..=64 and leaves everything else unchanged.", "quantifier": "every history of API calls", "why_tests_cant": "Histories of unbounded length.", "anchors": ["src/encoder.rs:Encoder"]}
{"id": "C38", "title": "Baseline limits", "statement": "In the non-progressive modes coded DC differences need at most 11 bits and AC values at most 10 bits, an interleaved MCU has at most 10 blocks, and interleaving is only used with factors 1 and 2, as T.81 baseline requires.", "quantifier": "every image and settings", "why_tests_cant": "Depends on the range of the DCT over all blocks.", "anchors": ["src/encoder.rs:supports_interleaved", "src/writer.rs:get_code"]}
{"id": "C39", "title": "Magnitude coding", "statement": "The size category and additional bits of a coefficient determine it (EXTEND of T.81 F.12 inverts get_code), and the statistics code and the writer agree on the size category.", "quantifier": "every value in [-16383, 16383]", "why_tests_cant": "Tested only for +-8192 and only for the number of bits.", "anchors": ["src/writer.rs:get_code", "src/encoder.rs:get_num_bits"]}
{"id": "C40", "title": "Zig-zag order", "statement": "The coefficient order used for DQT and blocks is the zig-zag scan of T.81 Figure A.6, a permutation of 0..63.", "quantifier": "all 64 positions", "why_tests_cant": "Finite, but everything else relies on it.", "anchors": ["src/writer.rs:ZIGZAG"]}
{"id": "C41", "title": "Coefficients in the file are close to the exact transform", "statement": "Each dequantised coefficient of the decoded file (file's own table entry times decoded value) differs from the exact DCT coefficient (T.81 A.3.3) of the samples its block stands for by at most half a step if the step is a power of two, 2/3 of a step otherwise, plus 0.47.", "quantifier": "every image, color type, sampling factors, mode, quality and table with entries up to 255; every coefficient of every block", "why_tests_cant": "Real-number statement over all images; combines subsampling, DCT, quantisation, entropy coding and the tables in the file.", "anchors": ["src/encoder.rs:encode_image", "src/fdct.rs:fdct", "src/quantization.rs:quantize"]}
{"id": "C42", "title": "Reconstruction error", "statement": "The samples a decoder reconstructs from the file by an exact inverse DCT (before rounding and clamping) have in every block a squared distance from the (padded, subsampled) samples of the image of at most the sum over the 64 coefficients of (bound of C41)^2.", "quantifier": "every image, color type, sampling factors, mode, quality and table with entries up to 255; every block", "why_tests_cant": "Needs orthogonality of the DCT over the reals.", "anchors": ["src/encoder.rs:encode_image", "src/fdct.rs:fdct", "src/quantization.rs:quantize"]}
{"id": "C43", "title": "Quality 100 is nearly lossless", "statement": "At quality 100 (or more) with built-in tables the mean squared error of the samples reconstructed from any block of the file is below 0.94.", "quantifier": "every image and all other settings", "why_tests_cant": "All images.", "anchors": ["src/encoder.rs:encode_image", "src/quantization.rs:new_with_quality"]}
{"id": "C44", "title": "Standard Huffman tables", "statement": "Without optimisation the Huffman tables in the file are the typical tables of T.81 K.3.3 (K.3, K.5 as number 0, K.4, K.6 as number 1).", "quantifier": "every image and settings without optimised tables", "why_tests_cant": "The crate's tests do not compare the tables with the standard, and the claim is about the file for all settings.", "anchors": ["src/huffman.rs:HuffmanTable", "src/writer.rs:write_huffman_segment", "src/encoder.rs:write_frame_header"]}
{"id": "C45", "title": "Encoder::new_file", "statement": "Whatever the operating system does (short writes, interruptions, errors), the file contains an initial part of the output a Vec would get, and if the system never fails it contains all of it with the same result. If encode returns Ok, at most the last 8192 bytes are missing; that Ok guarantees a complete file is false: the encoder never flushes its BufWriter, and on a full disk a small image gives Ok and an empty file.", "quantifier": "every encoder, image or slice and every sequence of answers of the operating system", "why_tests_cant": "Tests do not inject write errors, least of all at drop time.", "anchors": ["src/encoder.rs:new_file", "src/writer.rs:JfifWrite"]}
{"id": "C46", "title": "Optimised Huffman tables are optimal", "statement": "With optimised tables, no other valid DC table would code the symbols of the file that use a DC table with over 15 bits less than the one in the file, and the same holds for AC tables without codes of 16 bits (where the limit of the code length does not interfere); such codes take more than 2582 AC symbols, so images with at most 40 blocks per table never have them. In particular such tables are never over 15 bits worse than the standard ones. The 15 bits are the cost of the reserved code word of ones.", "quantifier": "every image and settings with optimised tables, every well formed table to compare with; every symbol statistics", "why_tests_cant": "Compares with all possible tables.", "anchors": ["src/huffman.rs:new_optimized", "src/encoder.rs:optimize_huffman_table"]}
{"id": "C47", "title": "Flat areas stay flat", "statement": "A block of the file that stands for 64 samples with the same value v has only zero AC coefficients; the samples reconstructed from it are all equal and within quantError(DC step)/8 of v (1/16 of the step if it is a power of two, 1/12 otherwise). At quality 100 with built-in tables the rounded samples are exactly v.", "quantifier": "every image, settings, component and block, both builds (scalar and AVX2)", "why_tests_cant": "All images and settings; a rounding bias in the transform would show up only for particular values.", "anchors": ["src/fdct.rs:fdct", "src/avx2/fdct.rs:fdct_avx2", "src/encoder.rs:encode_image"]}
{"id": "C48", "title": "Changes are local", "statement": "If two images of the same size and color type have the same samples in the area a block stands for, then the block has the same coefficients in both files, whatever the rest of the images is.", "quantifier": "every pair of images, all settings, every block", "why_tests_cant": "Relates all pairs of runs.", "anchors": ["src/encoder.rs:get_block", "src/encoder.rs:encode_image"]}
{"id": "C49", "title": "RGB pixels survive quality 100", "statement": "At quality 100 with built-in quantisation tables and without chroma subsampling, RGB, RGBA, BGR and BGRA pixels come back from the file: exact inverse DCT and the YCbCr to RGB conversion of JFIF give red, green and blue with mean squared errors of at most 12.7, 9.3 and 16.8 in every 8x8 block.", "quantifier": "every image in these pixel formats, all other settings, both builds (scalar and AVX2)", "why_tests_cant": "All images; a test compares a few images with a tolerance.", "anchors": ["src/image_buffer.rs:rgb_to_ycbcr", "src/encoder.rs:encode", "src/fdct.rs:fdct", "src/avx2/ycbcr.rs"]}
{"id": "C50", "title": "Grey stays grey", "statement": "An RGB, RGBA, BGR or BGRA image whose pixels are all grey is stored as a grey image: every chroma coefficient in the file is zero, and the luma component has the coefficients and quantisation table of the file that encoding the grey values as Luma gives.", "quantifier": "every grey image and settings, both builds (scalar and AVX2)", "why_tests_cant": "All grey images and settings; an off-by-one bias in the conversion or the transform would show up for particular values only.", "anchors": ["src/image_buffer.rs:rgb_to_ycbcr", "src/encoder.rs:encode", "src/fdct.rs:fdct", "src/avx2/ycbcr.rs"]}
{"id": "C51", "title": "Images are self-delimiting", "statement": "The end of an encoded image can be found without decoding: skipping segments by length and entropy coded data up to the next marker that is not a restart marker leads to the EOI at the very end, whatever follows the image. Concatenated outputs (motion JPEG) split into the images again, every truncated output is recognised as incomplete, and no output is a proper prefix of another one.", "quantifier": "every list of outputs with any images, image buffers (also inconsistent ones), settings and builds, every following data, every truncation point", "why_tests_cant": "All images, lists of images, truncation points and continuations.", "anchors": ["src/writer.rs:write_segment", "src/writer.rs:write_bits", "src/encoder.rs:encode_image_internal"]}
{"id": "C52", "title": "Size of the output", "statement": "The output has at most 6400 bytes + 4 + length for every application segment + 417 bytes per block (components x (width+31)/8 x (height+31)/8), plus 4 bytes per block and scan with restart markers. A buffer of that size is always enough.", "quantifier": "every image and settings (any mode, restart interval, tables, application segments)", "why_tests_cant": "Worst case over all images and settings; test images are never near it.", "anchors": ["src/encoder.rs:encode_image", "src/writer.rs:write_bits", "src/writer.rs:huffman_encode_value", "src/writer.rs:write_block"]}
{"id": "C53", "title": "No undefined behaviour", "statement": "encode has defined behaviour for every encoder, every pixel slice (also too short or too long), size, color type and writer: it never reads outside the slice or writes past the reserved memory, provided width x height x bytes per pixel fits a usize; without SIMD always. encode_image has defined behaviour for every image buffer whose fill_buffers has. Without that condition it is false (32 bit release build with AVX2).", "quantifier": "every encoder, slice, size, color type, image buffer and writer (also failing at any write), both builds", "why_tests_cant": "Memory safety quantifies over all inputs; an out-of-bounds read usually goes unnoticed in a test.", "anchors": ["src/avx2/ycbcr.rs", "src/encoder.rs:encode", "src/encoder.rs:encode_image", "src/encoder.rs:init_rows"]}
{"id": "C54", "title": "Every call ends", "statement": "encode and encode_image return or panic after finitely many steps for every configuration, image (also with a buffer that breaks the contract, provided its own code ends) and writer. This includes optimised Huffman tables of images so large that the 32 bit symbol counters overflow (debug builds panic; release builds go on with wrapped counters and still end).", "quantifier": "every sequence of configuration calls, image, slice, size and writer, both builds, debug and release", "why_tests_cant": "Termination of the loops over data-dependent code lengths cannot be observed by finitely many runs.", "anchors": ["src/huffman.rs:new_optimized", "src/encoder.rs:optimize_huffman_table", "src/encoder.rs:get_num_bits", "src/writer.rs:write_ac_block", "src/writer.rs:finalize_bit_buffer"]}
{"id": "C55", "title": "The simd feature changes the image by at most one coefficient step", "statement": "For the same settings and pixels the files written with and without the AVX2 code have the same frame header and the same quantisation tables, and every coefficient of every block has the same value in both files, except those in rows 0 and 4 and odd columns of the 8x8 block, where the file of the AVX2 build may hold the value minus one.", "quantifier": "every sequence of configuration calls, image and sampling factor, baseline and progressive, with and without optimised tables and restart intervals", "why_tests_cant": "The comparison ranges over all blocks and tables; tests compare a few images.", "anchors": ["src/avx2/fdct.rs", "src/fdct.rs", "src/encoder.rs:encode_image"]}
{"id": "C56", "title": "Sections of the file", "statement": "A file consists of SOI, the JFIF segment, the Adobe segment for CMYK and YCCK, the user's application segments in the order of the calls, the frame header, two DQT segments, two or four DHT segments, the DRI segment if there is a restart interval, the scans (one, one per component, or the configured number per component) and EOI, in this order and nothing else.", "quantifier": "every sequence of configuration calls, image and size, all modes", "why_tests_cant": "The list depends on the settings, the color type and an unbounded history of calls.", "anchors": ["src/encoder.rs:encode_image_internal", "src/encoder.rs:write_frame_header", "src/encoder.rs:encode_image_progressive", "src/writer.rs:write_header"]}
{"id": "C57", "title": "Errors and their messages", "statement": "encode and encode_image return only errors of the writer, the error for an empty image and (encode) the one for a slice that is too short; in the latter cases nothing was written and the message states the actual values and the required length. add_app_segment and add_icc_profile fail exactly for the numbers and lengths their messages name. Only errors of the writer have a source.", "quantifier": "every encoder, slice, size, color type, image buffer and writer, both builds", "why_tests_cant": "That no other error can occur quantifies over all inputs and writers.", "anchors": ["src/error.rs", "src/encoder.rs:encode", "src/encoder.rs:add_app_segment", "src/encoder.rs:add_icc_profile"]}
{"id": "C58", "title": "Only the latest settings count", "statement": "Two encoders of the same quality whose histories of configuration calls leave the same latest value of every setting and add the same segments behave in the same way for every input. In particular calls that set different things can be exchanged, and a call that reports an error has no effect.", "quantifier": "every two sequences of configuration calls and every input and writer", "why_tests_cant": "Histories are unbounded.", "anchors": ["src/encoder.rs:set_density", "src/encoder.rs:set_progressive_scans", "src/encoder.rs:add_app_segment", "src/encoder.rs:add_icc_profile"]}
{"id": "C59", "title": "Density and application segments leave the image data alone", "statement": "Two encoders that differ only in density and application segments write, for every image, a leading part (SOI, JFIF header with the density, Adobe segment, application segments; given byte by byte) and then exactly the same bytes with the same outcome. Everything a decoder uses to reconstruct the picture is after the leading part.", "quantifier": "every two sequences of configuration calls that agree on the other settings, and every image", "why_tests_cant": "The claim compares two files for all images and all metadata.", "anchors": ["src/encoder.rs:encode_image_internal", "src/encoder.rs:set_density", "src/encoder.rs:add_app_segment", "src/writer.rs:write_header"]}
{"id": "C60", "title": "Quality values that mean the same", "statement": "The quality is limited to 1..100: two encoders whose other settings agree behave in the same way for every input if their qualities are the same after limiting, or if both quantisation tables are custom tables.", "quantifier": "every two qualities, configurations and inputs", "why_tests_cant": "The claim is an equality of two programs for all inputs.", "anchors": ["src/encoder.rs:new", "src/quantization.rs:new_with_quality"]}
{"id": "C61", "title": "Error of RGB pixels at any quality", "statement": "Without chroma subsampling, at every quality and with any 8 bit tables, decoding the file by the book gives red, green and blue whose root mean squared error in every block is bounded by what the luma and chroma tables in the file allow, weighted by the coefficients of the colour conversion, plus the rounding of that conversion.", "quantifier": "every configuration without subsampling, RGB, RGBA, BGR and BGRA images of every size, scalar and SIMD", "why_tests_cant": "The bound covers all images; the intermediate roundings interact.", "anchors": ["src/image_buffer.rs:rgb_to_ycbcr", "src/fdct.rs:fdct", "src/quantization.rs:quantize"]}
{"id": "C62", "title": "Only rows of the image are requested", "statement": "A custom ImageBuffer is asked for rows 0..height only: two buffers of the same size and color type that answer alike for these rows cannot be told apart, whatever they do (panic, for example) for other row numbers.", "quantifier": "every encoder, image buffer, size, writer and build", "why_tests_cant": "Quantifies over all implementations of a trait.", "anchors": ["src/encoder.rs:encode_image_interleaved", "src/encoder.rs:encode_blocks", "src/image_buffer.rs:ImageBuffer"]}
{"id": "C63", "title": "A restart interval that is never reached", "statement": "If the restart interval is at least the number of 8x8 blocks of the image, the file is the one without restart interval plus the DRI segment: no restart marker, no other change.", "quantifier": "every configuration, image, size and mode", "why_tests_cant": "The claim compares two files for all images.", "anchors": ["src/encoder.rs:set_restart_interval", "src/encoder.rs:encode_image_interleaved", "src/encoder.rs:encode_image_sequential", "src/encoder.rs:encode_image_progressive"]}
{"id": "C64", "title": "Release builds do what debug builds do", "statement": "For every encoder, input and writer, also those outside the supported range: unless the debug build stops at an arithmetic overflow check or a debug_assert!, the release build leaves the writer in the same state and returns the same result. If the debug build stops there, what it has written is the beginning of what the release build writes.", "quantifier": "every encoder, image, custom ImageBuffer, data slice, writer and word size", "why_tests_cant": "Tests are run in debug builds, users run release builds; the equality is needed for all inputs.", "anchors": ["src/encoder.rs:encode", "src/encoder.rs:encode_image", "src/writer.rs:write_bits", "src/huffman.rs:get_for_value"]}
{"id": "C65", "title": "Rows are requested in order", "statement": "encode_image asks a custom ImageBuffer for rows 0, 1, ..., height - 1 in this order, each once, followed by repetitions of the last row up to a whole MCU row; also when the run ends with an error the requests made are an initial segment of that list. A buffer with state (a stream, a counter, a decoder) that answers like a pure one as long as it is asked in this order leads to the same effect on the writer and the same result.", "quantifier": "every encoder, color type, size, build, writer and image buffer with side effects, including panicking ones", "why_tests_cant": "Quantifies over all implementations of a trait with state and over all histories of calls.", "anchors": ["src/encoder.rs:encode_image_interleaved", "src/encoder.rs:encode_blocks", "src/image_buffer.rs:ImageBuffer"]}
{"id": "C66", "title": "What the row buffers contain when a row is requested", "statement": "If an ImageBuffer appends width samples per component at every call, then at its n-th call every component's buffer holds a whole number of lines of the width extended to whole MCUs: n mod (8 x vertical factor) lines in baseline mode, hence fewer than 16 lines whatever the height (bounded memory), and n lines in all other modes.", "quantifier": "every encoder, color type, size, writer, and image buffer with side effects", "why_tests_cant": "Quantifies over all implementations of a trait with state and over all image heights.", "anchors": ["src/encoder.rs:encode_image_interleaved", "src/encoder.rs:encode_blocks", "src/image_buffer.rs:ImageBuffer"]}
{"id": "C67", "title": "Baseline files appear while the rows are read", "statement": "In baseline mode, whenever encode_image is about to read a row m of MCU row r >= 1 (first row n), the bytes already given to the writer are the beginning of the final file, and with n in the height field they are the complete file of the image consisting of rows 0..n except for a tail of at most two machine words and the EOI marker: everything above row n can be decoded, with exactly the coefficients of the final file. In all other modes nothing but SOI, JFIF, Adobe and application segments has been written before the last row is read.", "quantifier": "every configuration, image buffer (also with side effects), size, build, word size, MCU row and row in it", "why_tests_cant": "A claim about every intermediate state of every run.", "anchors": ["src/encoder.rs:encode_image_interleaved", "src/encoder.rs:encode_image_sequential", "src/encoder.rs:encode_image_progressive", "src/writer.rs:write_bits", "src/writer.rs:finalize_bit_buffer"]}
{"id": "C68", "title": "Ok means a complete file, whatever the image buffer did", "statement": "If encode_image returns Ok, the bytes the writer accepted are a complete, decodable JPEG file with the announced size, color type, sampling, application segments, tables and number of scans - also for an ImageBuffer that breaks its contract: too many or too few samples, rewriting rows delivered before, answers that change from call to call. A broken buffer can lead to wrong pixels, an Err or a panic, never to a malformed file reported as success. With optimised tables this needs no restart marker inside a component (see C10) and at most 68 million blocks per table.", "quantifier": "every configuration, writer, build, color type, size, and image buffer with arbitrary state and side effects", "why_tests_cant": "Quantifies over all implementations of two traits, including wrong ones.", "anchors": ["src/encoder.rs:encode_image", "src/encoder.rs:encode_image_interleaved", "src/encoder.rs:encode_blocks", "src/encoder.rs:get_block", "src/image_buffer.rs:ImageBuffer"]}
{"id": "C69", "title": "In a debug build Ok always means a complete and correct file", "statement": "With overflow checks and debug assertions enabled, encode and encode_image never return Ok with a wrong file: if they return Ok, the bytes the writer accepted decode to exactly the quantised coefficients of the image, for all settings and image sizes without any condition - also for the combinations for which C10, C11 and C12 say that encoding is impossible: these end with a panic. For an ImageBuffer that breaks its contract the file is still complete and well-formed.", "quantifier": "every configuration, image, size, slice (also too short ones), image buffer, writer and word size, in debug builds", "why_tests_cant": "A claim about every run that returns Ok, including those of settings known to be dangerous.", "anchors": ["src/encoder.rs:encode", "src/encoder.rs:encode_image", "src/encoder.rs:encode_blocks", "src/encoder.rs:optimize_huffman_table", "src/huffman.rs:get_for_value", "src/writer.rs:write_dc"]}
{"id": "C70", "title": "Files can be shown before they are complete", "statement": "For each number k of scans there is a point in the file, further back for larger k, such that the file up to there (closed with an EOI marker) decodes: the headers are those of the file, each block has the final values of the coefficients of the first k scans, and zeros for the others. In a progressive file the DC values of all blocks, and nothing else, are there after the first scan of every component: a preview of the whole image in an eighth of the resolution.", "quantifier": "every image, all settings and modes, every number of scans", "why_tests_cant": "All images and all points between scans; depends on the order of the scans and the headers written before them.", "anchors": ["src/encoder.rs:encode_image_progressive", "src/encoder.rs:encode_image_sequential", "src/encoder.rs:write_frame_header"]}
{"id": "C71", "title": "CMYK inks survive", "statement": "A decoder that follows Adobe's convention (inverted inks, transform flag of the APP14 segment) gets back the inks given to encode, up to the quantisation error: for ColorType::Cmyk and ColorType::CmykAsYcck, at any quality and without subsampling, the root mean square error of every ink in every 8x8 block is bounded by an explicit expression in the steps of the quantisation tables in the file. With subsampling the same holds in every MCU for black, which keeps its resolution, and for the other inks if how much they (for YCCK: their chroma) differ from those of the pixel their sample is taken from is added to the bound.", "quantifier": "every CMYK image, size, quality or custom 8-bit tables, mode, build, word size, scalar and AVX2 variant", "why_tests_cant": "All images and qualities; a wrong inversion or transform flag gives plausible files with inverted colors.", "anchors": ["src/image_buffer.rs:CmykImage", "src/image_buffer.rs:CmykAsYcckImage", "src/image_buffer.rs:cmyk_to_ycck", "src/encoder.rs:encode_image_internal"]}
{"id": "C72", "title": "Blocks do not depend on where they are", "statement": "Two blocks, in the same or different images, encoded with the same quantisation tables get the same coefficients if their (padded, subsampled) samples are the same, whatever their position, the size of the images, the mode, restart intervals and Huffman tables. Hence an image cut at MCU boundaries and encoded in tiles gives exactly the coefficients of the whole image (lossless cropping and joining).", "quantifier": "every pair of images and configurations with the same tables (and sampling factors), every MCU-aligned tile", "why_tests_cant": "Relates two arbitrary runs.", "anchors": ["src/encoder.rs:encode_blocks", "src/encoder.rs:get_block", "src/encoder.rs:encode_image_interleaved", "src/fdct.rs:fdct", "src/quantization.rs:quantize"]}
{"id": "C73", "title": "Damage stays inside a restart interval", "statement": "With a restart interval of n MCUs the data of each scan consists of one part for each n MCUs, without it of one part. Whatever happens to the bytes of some of the parts (as long as no markers appear or get lost), a decoder which skips the parts it cannot decode recovers every coefficient except those in the damaged parts, and all headers.", "quantifier": "every image, configuration and mode, every scan, every set of damaged parts and every replacement of their bytes", "why_tests_cant": "All corruptions of all files.", "anchors": ["src/encoder.rs:set_restart_interval", "src/encoder.rs:encode_image_interleaved", "src/encoder.rs:encode_image_sequential", "src/encoder.rs:encode_image_progressive", "src/writer.rs:finalize_bit_buffer"]}
{"id": "C74", "title": "The settings and the quantised coefficients determine the file", "statement": "Two images of the same size and color type, encoded with the same settings, give the same file byte by byte as soon as their quantised coefficients are the same: nothing else about the image, the machine (word size), the build (debug or release, simd or not) or the kind of input buffer can be seen in the file, also with optimised Huffman tables.", "quantifier": "every configuration, every pair of images, machines and builds", "why_tests_cant": "Relates two arbitrary runs on different machines.", "anchors": ["src/encoder.rs:encode_image_internal", "src/encoder.rs:optimize_huffman_table", "src/writer.rs:write_block", "src/writer.rs:write_bits"]}
{"id": "C75", "title": "No loss in the second generation", "statement": "If an image is encoded, decoded (exact inverse transform, rounded to 8 bit samples), and the decoded samples are encoded again with the same quantisation tables and sampling, then in every block that needed no clamping every coefficient with a quantisation step of at least 14 is unchanged. If the image consists of whole MCUs, and all steps are at least 14 (default tables: quality 35 or less), the second file is the first file, byte by byte.", "quantifier": "every image, configuration, mode, build, and every block whose samples were not clamped", "why_tests_cant": "Relates two runs for all images; depends on the exact error bounds of transform and quantiser.", "anchors": ["src/fdct.rs:fdct", "src/avx2/fdct.rs:fdct_avx2", "src/quantization.rs:quantize", "src/encoder.rs:get_block"]}
{"id": "C76", "title": "Brightness and block means", "statement": "Two blocks whose samples differ by a constant, in any two images encoded with the same quality and tables, have exactly the same AC coefficients. The mean of the 64 samples a decoder reconstructs for a block differs from the mean of the samples the block stands for by at most one eighth of the quantisation error of the DC step, however coarse the other steps are.", "quantifier": "every pair of images and blocks, every offset; every image, block, configuration, mode and build", "why_tests_cant": "Relates two arbitrary runs; an integer transform loses such properties by a single wrong rounding.", "anchors": ["src/fdct.rs:fdct", "src/avx2/fdct.rs:fdct_avx2", "src/quantization.rs:quantize", "src/encoder.rs:get_block"]}
{"id": "C77", "title": "Stripes stay stripes", "statement": "If the eight lines (columns) of a block are the same, all its coefficients with a vertical (horizontal) frequency are zero and the eight lines (columns) that a decoder reconstructs are the same.", "quantifier": "every image, block, configuration, mode and build (scalar and AVX2)", "why_tests_cant": "All images; the claim is exact, not up to rounding.", "anchors": ["src/fdct.rs:fdct", "src/avx2/fdct.rs:fdct_avx2", "src/quantization.rs:quantize", "src/encoder.rs:get_block"]}
{"id": "C78", "title": "Any io::Write, and fixed size slices", "statement": "Whatever the write method of a std::io::Write does (short writes, Interrupted, errors, more than it was given), the bytes it has accepted when encode returns are an initial part of the output a Vec gets; Ok means that exactly this output was accepted; a writer that only splits the data or is interrupted finitely often has no influence. Encoding into a slice of n bytes returns Ok if and only if the output fits, and otherwise fills the slice with its first n bytes and returns an error.", "quantifier": "every encoder, image or slice, every writer with any state and any answers", "why_tests_cant": "All interleavings of short writes, interruptions and errors.", "anchors": ["src/writer.rs:JfifWrite", "src/writer.rs:JfifWriter", "src/encoder.rs:encode", "src/encoder.rs:encode_image"]}
{"id": "C79", "title": "Image buffers that change their mind", "statement": "width, height, color type and rows of a user's ImageBuffer may differ from call to call. Whatever they are, and whatever the writer does, encode_image ends without undefined behaviour, and returns Ok, panics, or returns an error of the writer, or (with nothing written) the error for an empty image. If width, height and color type are constant, everything said about image buffers holds. That Ok then still means a valid file is false if they are not: the code asks several times and never compares the answers.", "quantifier": "every encoder, every image buffer with any state and any answers, every writer", "why_tests_cant": "All histories of answers of user code.", "anchors": ["src/encoder.rs:encode_image_internal", "src/encoder.rs:write_frame_header", "src/encoder.rs:encode_image_interleaved", "src/encoder.rs:encode_blocks", "src/image_buffer.rs:ImageBuffer"]}
{"id": "C80", "title": "The fuzz targets accept every input", "statement": "Whatever bytes a fuzzer feeds to the project's fuzz targets (fuzz/fuzz_targets), with debug assertions on or off, with or without AVX2: none of them panics. All but the one with custom quantisation tables produce, for every input with at least one pixel, a file a strict decoder accepts, with the right size and sampling. The target with optimised Huffman tables: for inputs of less than 28 million bytes. The target with custom tables also accepts inputs for which no decoder accepts the file.", "quantifier": "every byte string of any length (that fits into memory)", "why_tests_cant": "A fuzzer samples the inputs; this is about all of them.", "anchors": ["fuzz/fuzz_targets/encode_rgb.rs", "fuzz/fuzz_targets/encode_rgb_custom_q_table.rs", "fuzz/fuzz_targets/encode_rgb_optimized.rs", "fuzz/fuzz_targets/encode_rgb_progressive.rs", "fuzz/fuzz_targets/encode_rgb_subsampled.rs", "fuzz/fuzz_targets/encode_ycck_progressive.rs", "src/encoder.rs:encode"]}
{"id": "C81", "title": "RGB error with chroma subsampling", "statement": "For every sampling factor: shown by a decoder that repeats each chroma sample over the pixels it stands for, the mean square error of red, green and blue over the pixels of every MCU is bounded by the quantisation steps of the two tables, and by how much the chroma of a pixel differs from the chroma of the pixel its sample is taken from. For images of any color type, what is shown of a component differs from its samples at the sampled pixels, in every MCU, by no more than the quantisation steps of its table allow.", "quantifier": "every RGB, RGBA, BGR or BGRA image, every configuration, sampling factor, mode and build (scalar and AVX2)", "why_tests_cant": "All images and tables; the bound combines transform, quantisation, color conversion and sample positions.", "anchors": ["src/encoder.rs:get_block", "src/encoder.rs:encode_blocks", "src/encoder.rs:SamplingFactor", "src/image_buffer.rs:rgb_to_ycbcr", "src/avx2/ycbcr.rs", "src/fdct.rs:fdct", "src/quantization.rs:quantize"]}
{"id": "C82", "title": "Gray images ignore the sampling factor", "statement": "Two encoders that differ only in the sampling factor write the same bytes for a gray image, although some sampling factors make the encoder use another way to encode (one scan per component, all blocks held in memory).", "quantifier": "every gray image, every pair of sampling factors, every configuration, mode and build", "why_tests_cant": "Relates two arbitrary runs that take different paths.", "anchors": ["src/encoder.rs:set_sampling_factor", "src/encoder.rs:init_components", "src/encoder.rs:encode_image_interleaved", "src/encoder.rs:encode_image_sequential"]}
{"id": "C83", "title": "The file tells whether it is complete", "statement": "What a writer has accepted when encode or encode_image returns, what is on disk after a crash, and what Encoder::new_file has left in the file, is an initial part of the output; it is all of it exactly if a reader that skips segments by their lengths finds the end of the image, and otherwise neither this reader nor any decoder accepts it. For every io::Write that does not claim to have accepted more than it was given, encode returns Ok exactly if the accepted bytes are a complete image.", "quantifier": "every output of a successful call (any settings, any image), every initial part of it, every writer with any state and any answers, every behaviour of the operating system", "why_tests_cant": "All crash points and all behaviours of a writer.", "anchors": ["src/encoder.rs:encode_image_internal", "src/encoder.rs:new_file", "src/writer.rs:write_segment", "src/writer.rs:write_marker", "src/writer.rs:JfifWrite"]}
{"id": "C84", "title": "A panic in the image buffer never leaves a file that looks complete", "statement": "If fill_buffers of a user supplied image buffer panics at any of its calls, encode_image unwinds with that panic, and what has been written by then is an initial part of what the same image gives without the panic, never all of it: a reader that skips segments by their lengths, and every decoder, sees that something is missing. If no panic is met, the result is that of the image without panics. For every io::Write that does not claim to have accepted more than it was given, and every image buffer that honours the contract or panics, Ok is returned exactly if the accepted bytes are a complete image.", "quantifier": "every image buffer that appends its row or panics, for each row and each state of the buffers; every configuration, mode, build and writer", "why_tests_cant": "All points at which user code can panic, combined with all behaviours of the writer.", "anchors": ["src/encoder.rs:encode_image", "src/encoder.rs:encode_image_internal", "src/encoder.rs:encode_blocks", "src/image_buffer.rs:ImageBuffer"]}
{"id": "C85", "title": "The result tells whether the output is complete, whatever image buffer and writer do", "statement": "Take any image buffer, even one whose width, height, color type or rows differ from call to call or whose methods panic, and any settings (also those for which the file cannot be decoded). encode_image returns Ok exactly if what the writer has accepted is one complete image for a reader that skips segments by their lengths and entropy coded data up to the next marker: every segment has the length it announces, no marker appears inside a scan except restart markers, and the EOI is there, once, at the end. If it returns an error or panics, such a reader, and every decoder, sees that the image is incomplete. The same holds for encode with any data. For any JfifWrite the bytes counted are those of the write_all calls that returned Ok; for any io::Write that does not claim to have accepted more than it was given they are all bytes it accepted.", "quantifier": "every image buffer with any state and any answers, every writer, every configuration, mode and build", "why_tests_cant": "All histories of answers of the image buffer and the writer, including inconsistent ones.", "anchors": ["src/encoder.rs:encode_image", "src/encoder.rs:encode_image_internal", "src/encoder.rs:write_frame_header", "src/writer.rs:write_segment", "src/writer.rs:write_bits", "src/writer.rs:write_bit_buffer", "src/writer.rs:finalize_bit_buffer", "src/writer.rs:write_scan_header", "src/image_buffer.rs:ImageBuffer"]}
{"id": "C86", "title": "What a call does at most, whatever image buffer and writer do", "statement": "Take any image buffer, even one whose answers differ from call to call, that violates the trait's rules about rows or panics, any writer in any state, any configuration and any build. If no answer is larger than w x h pixels with n components (65535 x 65535 and 4 always), a call of encode_image, whether it returns Ok, an error or panics, hands at most 4500 bytes, plus the application segments with 4 bytes each, plus n * ((w+31)/8 * ((h+31)/8)) * (496 + 4 * scans) bytes (8 * scans with restart markers) to the writer, and calls fill_buffers at most h + 31 times. scans is the number of progressive scans, or 1. The bound on the bytes also holds for encode with any data.", "quantifier": "every image buffer with any state and any answers, every writer, every configuration, mode and build", "why_tests_cant": "All histories of answers of the image buffer, all contents of the rows (also longer or shorter than they should be) and all optimised tables that follow from them.", "anchors": ["src/encoder.rs:encode_image", "src/encoder.rs:encode_blocks", "src/encoder.rs:encode_image_interleaved", "src/encoder.rs:encode_image_progressive", "src/encoder.rs:encode_image_sequential", "src/writer.rs:write_bits", "src/writer.rs:write_block", "src/writer.rs:huffman_encode_value", "src/huffman.rs:new_optimized", "src/image_buffer.rs:ImageBuffer"]}
{"id": "C87", "title": "How images are continued beyond their edges", "statement": "A JPEG file codes whole blocks and MCUs, so an image whose size is not a multiple of them is continued: with its last column to the right and its last line below. In terms of files: let a second image be larger, its additional columns and lines repeating the last column and line of the first. If both have the same number of 8 x 8 blocks in both directions, the two files are the same byte by byte except for the four bytes of the frame header that state height and width, in all modes and with all settings, including optimised Huffman tables. In baseline mode the same number of MCUs is enough.", "quantifier": "every configuration, pixel format and image, each pair of sizes with the same number of blocks (MCUs)", "why_tests_cant": "All sizes modulo the MCU size, for each sampling factor, mode and pixel content.", "anchors": ["src/encoder.rs:encode_image_interleaved", "src/encoder.rs:encode_blocks", "src/encoder.rs:get_block", "src/encoder.rs:init_rows", "src/encoder.rs:write_frame_header", "src/writer.rs:write_frame_header"]}
{"id": "C88", "title": "Writers can be lent", "statement": "An encoder that is given a mutable reference to a writer (JfifWrite for &mut W, also nested) makes the same calls, returns the same result and leaves the writer in the same state as an encoder that owns it; nothing else the caller has is changed. Hence several encoders can write into one borrowed writer in turn, as if by value; a borrowed Vec gets the files one after the other behind what it contained.", "quantifier": "every writer with any state and answers, every encoder, image and call, every sequence of calls", "why_tests_cant": "All writers, states and sequences of calls.", "anchors": ["src/writer.rs:JfifWrite", "src/encoder.rs:new", "src/encoder.rs:encode", "src/encoder.rs:encode_image"]}
{"id": "C89", "title": "What new_file does to the file system", "statement": "If the file cannot be created, new_file returns the system's error and no file changes. Otherwise only the file at the given path changes: its old contents are gone and have no influence; whatever the system answers to the writes, it contains an initial part of the output a Vec would get (all of it if the system does not fail; all but at most 8192 bytes if encode returns Ok). After any history of uses each file is determined by the last use that created it. That an existing file survives an encode call that fails is false: the file is emptied before the input is looked at, so that invalid dimensions or short data leave an empty file.", "quantifier": "every file system, path, encoder, call, every sequence of answers of the operating system and every history of uses", "why_tests_cant": "All histories and all answers of the operating system.", "anchors": ["src/encoder.rs:new_file", "src/error.rs:EncodingError"]}
{"id": "C90", "title": "Finer tables keep more of the image", "statement": "If an image is encoded twice with the same sampling factors (the other settings may differ) then, wherever the quantisation table of the second file has an entry that is not larger than that of the first, the coefficient does not change its sign and its absolute value gets at most one smaller; it does not get smaller if the entry of the first table is at most 69. In particular for a higher quality with built-in tables, where all entries get smaller or stay the same. That a higher quality never makes a coefficient smaller is false: with the default tables there is a grey image whose file at quality 49 has a coefficient that quality 50 sets to zero (reciprocal multiplication rounds 34.75 up for step 70 and down for step 69).", "quantifier": "every image, every pair of configurations with the same sampling factors, every coefficient of every block", "why_tests_cant": "All pairs of quality values and tables with all coefficient values; the smallest failing step is 70.", "anchors": ["src/quantization.rs:compute_reciprocal", "src/quantization.rs:quantize", "src/quantization.rs:get_with_quality", "src/encoder.rs:encode_image"]}
{"id": "C91", "title": "Components do not influence each other", "statement": "The coefficients of a block depend on nothing but its 64 samples and the entries of the quantisation table its component uses in the file. Two images encoded with any two configurations (quality, tables, sampling factors, colour types, modes and build profiles may all differ): blocks that stand for the same samples have equal coefficients wherever the tables of their components have equal entries. In particular the luma coefficients of a file are not touched by the chroma planes, the chroma table, the sampling factor or the mode: a grey image has the luma coefficients of any colour image with the same luma plane, quality and luma table.", "quantifier": "every pair of images, configurations, components and blocks", "why_tests_cant": "All pairs of images and settings.", "anchors": ["src/encoder.rs:init_components", "src/encoder.rs:get_block", "src/encoder.rs:encode_blocks", "src/encoder.rs:encode_image_interleaved", "src/quantization.rs:quantize"]}
{"id": "C92", "title": "The size of the output follows its contents", "statement": "The output has at most 6400 bytes, 4 bytes + length for every application segment, 7 bytes for every block (components x (width+31)/8 x (height+31)/8) and 4 bytes (8 with restart markers) for every block and scan, 16 bytes for every block of the file with nonzero AC coefficients and 7 bytes for every nonzero AC coefficient a decoder finds in the file. In particular for an image whose planes have only one value each, the output has at most the first three parts, in every mode.", "quantifier": "every image, configuration and call", "why_tests_cant": "All images and settings; the number of bytes per coefficient depends on the Huffman tables, runs of zeros, scans, restarts and byte stuffing.", "anchors": ["src/encoder.rs:encode_image_internal", "src/writer.rs:write_ac_block", "src/writer.rs:write_dc", "src/writer.rs:write_bits", "src/huffman.rs:new_optimized"]}
{"id": "C93", "title": "The exact size of the output", "statement": "The size of a file is the sum of the sizes of its parts: 4 bytes for the SOI and EOI markers, 4 bytes + length for every application segment, 10 bytes + 3 per component for the frame header, 2 x 69 for the quantisation tables, 21 bytes + number of symbols for every Huffman table, 6 for the restart interval, and for every scan 8 bytes + 2 per component + its entropy coded data. That data has exactly as many bytes as the symbols of the coefficients a decoder finds need with the tables in the file: for every restart interval the code words and additional bits rounded up to bytes, one zero byte for every byte 0xFF, and the restart markers. Nothing else is in the file: no padding, no unused bits beyond the last byte of an interval, no second copy of a table.", "quantifier": "every image, configuration and call", "why_tests_cant": "All images and settings; the size depends on every symbol of every block.", "anchors": ["src/encoder.rs:encode_image_internal", "src/encoder.rs:write_frame_header", "src/writer.rs:write_bits", "src/writer.rs:finalize_bit_buffer", "src/writer.rs:write_huffman_segment", "src/writer.rs:huffman_encode"]}
{"id": "C94", "title": "Optimised Huffman tables do not make files larger", "statement": "Of two encodes of the same image that differ only in set_optimized_huffman_tables, the one with optimised tables is at most 32 bytes + 1 byte per scan larger, not counting the zero bytes that have to follow a byte 0xFF in the two files. This is for encodes without restart intervals in which both files contain the blocks in the same order (progressive, grayscale, no chroma subsampling, or sampling factors with a scan per component), and if no AC code of the optimised tables has 16 bits, where their lengths may have been limited; with at most 2582 AC symbols per table, and so with at most 40 blocks per table, that is always so.", "quantifier": "every image, configuration and call; both files", "why_tests_cant": "All images: that the optimised code is optimal for the statistics of exactly the symbols that are written, that the difference of modes (separate scans) costs only headers, and that the tables are smaller, has to be true of every image.", "anchors": ["src/huffman.rs:new_optimized", "src/encoder.rs:optimize_huffman_table", "src/encoder.rs:encode_image_internal", "src/encoder.rs:encode_image_sequential"]}
{"id": "C95", "title": "Restart intervals change only the entropy coded data, and cost a bounded number of bytes per marker", "statement": "Of two encodes of the same image that differ only in set_restart_interval (n in the one, 0 in the other), a decoder finds the same application segments, quantisation tables, Huffman tables (also optimised ones), frame header, scan headers and coefficients; the restart interval is n in the one and 0 in the other. Apart from bytes 0xFF in the entropy coded data (with the first byte of every marker among them), the file with restart intervals is at most 6 bytes (the DRI segment) plus 4 c + 2 bytes for every restart marker in a scan with c components larger than the other.", "quantifier": "every image, configuration, interval n and encode call; both files", "why_tests_cant": "All images and intervals: every marker resets the predictions of all components of the scan and pads a byte, and the cost of a reset depends on the DC values and the table.", "anchors": ["src/encoder.rs:set_restart_interval", "src/encoder.rs:encode_image_interleaved", "src/encoder.rs:encode_image_sequential", "src/encoder.rs:encode_image_progressive", "src/encoder.rs:optimize_huffman_table", "src/writer.rs:finalize_bit_buffer", "src/writer.rs:write_dri"]}
{"id": "C96", "title": "An encoding depends only on the settings and on the samples inside the image, whatever comes out", "statement": "Two calls of encode or encode_image of the same encoder with images of the same color type, size and samples inside the image make the same calls to the writer, in the same order and with the same bytes, and give the same result, be it Ok, an error or a panic, with any writer that answers alike; bytes behind the image, alpha bytes, the order of the color bytes and the implementation of the image buffer do not matter.", "quantifier": "every encoder (any tables and settings, fitting the image or not), two images with equal samples, every writer", "why_tests_cant": "All encoders and images, including those that fail: nothing but the samples asked for may flow into the output, such as stale contents or the capacity of the row buffers or bytes behind the image.", "anchors": ["src/encoder.rs:encode", "src/encoder.rs:encode_image", "src/encoder.rs:encode_image_interleaved", "src/encoder.rs:encode_blocks", "src/encoder.rs:init_rows", "src/image_buffer.rs:fill_buffers"]}
{"id": "C97", "title": "Equal files come from similar images", "statement": "Two encodes, with any two configurations on any two machines, whose output is the same come from images of the same size and number of components that differ in every 8x8 block of every component by a squared distance of at most four times the loss the quantisation tables in the file allow, and in every sample by at most twice what one encode may change in it. At quality 100 with built-in tables, images whose gray, luma or (CMYK) black value differs by 14 or more at any one pixel always give different files.", "quantifier": "every pair of images, configurations and machines; every block", "why_tests_cant": "All pairs of images: no two of the astronomically many images that differ visibly may be confused.", "anchors": ["src/encoder.rs:encode", "src/encoder.rs:encode_image", "src/quantization.rs:quantize", "src/fdct.rs:fdct", "src/avx2/fdct.rs:fdct_avx2"]}
{"id": "C98", "title": "A bound for the error of every single sample; at quality 100 no pixel is far off", "statement": "In every file, every sample a standard decoder makes of it (exact inverse DCT, clamped to 0..255 and rounded) differs from the sample of the image it stands for by at most 1/2 plus a number that depends only on the quantisation table in the file and the place in the block. At quality 100 with built-in tables this is at most 7, without SIMD at most 6, for every sample of every component. For RGB pixel formats without chroma subsampling, the error of the colours is bounded likewise for every quality; at quality 100 a decoder that rounds Y, Cb and Cr and then the colours comes within 18, 15 and 21 (without SIMD 16, 13 and 18) of the red, green and blue of every pixel.", "quantifier": "every image, configuration, encode call and every pixel; every way of rounding ties", "why_tests_cant": "All images: the repository's tests check the difference of each pixel for a few images only; the worst image is not among them.", "anchors": ["src/fdct.rs:fdct", "src/avx2/fdct.rs:fdct_avx2", "src/quantization.rs:quantize", "src/image_buffer.rs:rgb_to_ycbcr", "src/encoder.rs:encode"]}
{"id": "C99", "title": "Decoders that do not compute exactly", "statement": "Whatever the error \u03b5 of a decoder (the largest difference of its samples from the exact inverse DCT, clamped to 0..255) and the error \u03b4 of its color conversion, the samples it makes of a file differ from those of the image by at most \u03b5 plus a number that depends only on the quantisation table in the file and the place in the block, and the red, green and blue of an image without chroma subsampling by at most the sum of these, \u03b5 and \u03b4 with the weights of the JFIF conversion, and 1.22, 1.04 and 1.4. At quality 100 with built-in tables a decoder with a peak error of 1 (IEEE 1180) makes samples that differ by at most 8 from those of the image, without SIMD by at most 7.", "quantifier": "every image, configuration, encode call, every pixel, every decoder error", "why_tests_cant": "All images and all decoders: the encoder's own tests use one decoder and a few images.", "anchors": ["src/fdct.rs:fdct", "src/avx2/fdct.rs:fdct_avx2", "src/quantization.rs:quantize", "src/image_buffer.rs:rgb_to_ycbcr", "src/encoder.rs:encode"]}
{"id": "C100", "title": "Optimised Huffman tables come close to the entropy", "statement": "In a file with optimised Huffman tables the code words of the symbols coded with a table take at least the information of these symbols (their number times the entropy of their distribution, which no table can beat), and at most one bit more per symbol, plus log2 of their number and 1.45 for the reserved code word - for DC tables without restart intervals always, for AC tables if the file has no code words of 16 bits in them, and always if there are at most 2582 symbols. Without restart intervals, the entropy coded data of such a file, without stuffed bytes, has at least as many bits as the information of its symbols and the digits of the magnitudes, and at most as many as this bound gives for every table, and 7 per scan. In every file - with standard or optimised tables, baseline or progressive, with or without subsampling and restart intervals - every symbol of every restart interval has a code word in the table the file has for it, and the entropy coded data, without stuffed bytes and markers, has at least as many bits as the information of its symbols and the digits of the magnitudes.", "quantifier": "every image, configuration with optimised tables, encode call and table; the lower bound for every configuration, every table and every sequence of symbols", "why_tests_cant": "All symbol statistics: a test compares the size of a few files; a mistake in the merging of frequencies or in the assignment of lengths costs size for some statistics only.", "anchors": ["src/huffman.rs:new_optimized", "src/encoder.rs:optimize_huffman_table", "src/encoder.rs:set_optimized_huffman_tables"]}
