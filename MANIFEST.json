{
 "claims": [
  {
   "property": "C01",
   "status": "proved",
   "theorems": [
    "Jpeg.C01_baseline",
    "Jpeg.C01_baseline_image"
   ],
   "note": ""
  },
  {
   "property": "C02",
   "status": "proved",
   "theorems": [
    "Jpeg.C02_sequential",
    "Jpeg.C02_sequential_image"
   ],
   "note": "With optimised tables: the first symbol of every restart interval also occurs without restarts (trivial without restarts inside a component), and the AC symbols of a table are less than fib(35)-1 (always true for up to 146466 blocks), or less than 2^32-1 and either at most 32 different ones or such that no best code has more than 32 bits (Spec.CanOptimize; C10 and C11 show what happens otherwise)."
  },
  {
   "property": "C03",
   "status": "proved",
   "theorems": [
    "Jpeg.C03_progressive_image",
    "Jpeg.C03_progressive_image_lenient",
    "Jpeg.C03_encode_round_trip"
   ],
   "note": "With optimised tables: the first symbol of every restart interval also occurs without restarts (trivial without restarts inside a component), and the AC symbols of a table are less than fib(35)-1 (always true for up to 146466 blocks), or less than 2^32-1 and either at most 32 different ones or such that no best code has more than 32 bits (Spec.CanOptimize; C10 and C11 show what happens otherwise)."
  },
  {
   "property": "C04",
   "status": "proved",
   "theorems": [
    "Jpeg.C04_mode_independent"
   ],
   "note": "With optimised tables: the first symbol of every restart interval also occurs without restarts (trivial without restarts inside a component), and the AC symbols of a table are less than fib(35)-1 (always true for up to 146466 blocks), or less than 2^32-1 and either at most 32 different ones or such that no best code has more than 32 bits (Spec.CanOptimize; C10 and C11 show what happens otherwise)."
  },
  {
   "property": "C05",
   "status": "proved",
   "theorems": [
    "Jpeg.C05_restart_markers"
   ],
   "note": ""
  },
  {
   "property": "C06",
   "status": "proved",
   "theorems": [
    "Jpeg.C06_no_false_marker"
   ],
   "note": ""
  },
  {
   "property": "C07",
   "status": "proved",
   "theorems": [
    "Jpeg.C07_bit_packing",
    "Jpeg.C07_no_padding_when_aligned"
   ],
   "note": ""
  },
  {
   "property": "C08",
   "status": "proved",
   "theorems": [
    "Jpeg.C08_tables_in_file",
    "Jpeg.C08_C11_optimized_table"
   ],
   "note": ""
  },
  {
   "property": "C09",
   "status": "proved",
   "theorems": [
    "Jpeg.C09_exactly_the_symbols"
   ],
   "note": "With optimised tables: the first symbol of every restart interval also occurs without restarts (trivial without restarts inside a component), and the AC symbols of a table are less than fib(35)-1 (always true for up to 146466 blocks), or less than 2^32-1 and either at most 32 different ones or such that no best code has more than 32 bits (Spec.CanOptimize)."
  },
  {
   "property": "C10",
   "status": "proved",
   "theorems": [
    "Jpeg.C10_restart_defect",
    "Jpeg.C10_restarts_work",
    "Jpeg.C10_debug_exact",
    "Jpeg.C10_release_exact"
   ],
   "note": "C10_restart_defect: a defect of the code, shown by a concrete image. C10_restarts_work: when it works. C10_debug_exact: the condition is exact in debug builds (success if it holds, panic if not). C10_release_exact: it is exact in release builds too (the call reports success in any case, and the file decodes to the image if and only if the condition holds)."
  },
  {
   "property": "C11",
   "status": "proved",
   "theorems": [
    "Jpeg.C08_C11_optimized_table",
    "Jpeg.C11_false"
   ],
   "note": "C11_false shows that the bound is sharp. short_equal: an example with 254 different symbols and 2^31 occurrences."
  },
  {
   "property": "C12",
   "status": "proved",
   "theorems": [
    "Jpeg.C12_encode",
    "Jpeg.C12_encode_image",
    "Jpeg.C12_memory_false",
    "Jpeg.C12_memory_exact"
   ],
   "note": "C12_memory_false, C12_memory_exact: on 32 bit targets the memory condition is needed, and exact. With optimised tables: the first symbol of every restart interval also occurs without restarts (trivial without restarts inside a component), and the AC symbols of a table are less than fib(35)-1 (always true for up to 146466 blocks), or less than 2^32-1 and either at most 32 different ones or such that no best code has more than 32 bits (Spec.CanOptimize; C10 and C11 show what happens otherwise)."
  },
  {
   "property": "C13",
   "status": "proved",
   "theorems": [
    "Jpeg.C13_platform_independent",
    "Jpeg.C13_platform_independent_image",
    "Jpeg.C13_debug_decides"
   ],
   "note": "C13_debug_decides: no hypothesis on the settings or the image, if one debug build returns Ok. The others: With optimised tables: the first symbol of every restart interval also occurs without restarts (trivial without restarts inside a component), and the AC symbols of a table are less than fib(35)-1 (always true for up to 146466 blocks), or less than 2^32-1 and either at most 32 different ones or such that no best code has more than 32 bits (Spec.CanOptimize; C10 and C11 show what happens otherwise)."
  },
  {
   "property": "C14",
   "status": "proved",
   "theorems": [
    "Jpeg.C14_encode",
    "Jpeg.C14_encode_image",
    "Jpeg.C14_recording_transparent",
    "Jpeg.C14_full_disk"
   ],
   "note": ""
  },
  {
   "property": "C15",
   "status": "proved",
   "theorems": [
    "Jpeg.C15_short_data_rejected",
    "Jpeg.C15_fits_64",
    "Jpeg.C15_zero_dimension_image",
    "Jpeg.C15_zero_dimension_rejected",
    "Jpeg.C15_enough_data_accepted"
   ],
   "note": ""
  },
  {
   "property": "C16",
   "status": "proved",
   "theorems": [
    "Jpeg.C16_short_data_rejected",
    "Jpeg.C16_false",
    "Jpeg.C16_false_simd",
    "Jpeg.C16_overflow"
   ],
   "note": "The rejection is proved under width*height*bytes-per-pixel < 2^32 and refuted beyond it; C16_overflow says exactly what happens there."
  },
  {
   "property": "C17",
   "status": "proved",
   "theorems": [
    "Jpeg.C17_trailing_data",
    "Jpeg.C17_alpha_and_order",
    "Jpeg.C96_trailing_data",
    "Jpeg.C96_alpha_and_order"
   ],
   "note": "The C96 theorems (equal programs, so equal bytes or equal failures) have no hypotheses on the configuration. The C17 theorems also say that the encodings succeed: With optimised tables: the first symbol of every restart interval also occurs without restarts (trivial without restarts inside a component), and the AC symbols of a table are less than fib(35)-1 (always true for up to 146466 blocks), or less than 2^32-1 and either at most 32 different ones or such that no best code has more than 32 bits (Spec.CanOptimize; C10 and C11 show what happens otherwise)."
  },
  {
   "property": "C18",
   "status": "proved",
   "theorems": [
    "Jpeg.C18_same_planes",
    "Jpeg.C18_documented_example",
    "Jpeg.C96_same_program",
    "Jpeg.C96_documented_example"
   ],
   "note": "The C96 theorems (equal programs, so equal bytes or equal failures) have no hypotheses on the configuration. The C18 theorems also say that the encodings succeed: With optimised tables: the first symbol of every restart interval also occurs without restarts (trivial without restarts inside a component), and the AC symbols of a table are less than fib(35)-1 (always true for up to 146466 blocks), or less than 2^32-1 and either at most 32 different ones or such that no best code has more than 32 bits (Spec.CanOptimize; C10 and C11 show what happens otherwise)."
  },
  {
   "property": "C19",
   "status": "proved",
   "theorems": [
    "Jpeg.C19_no_wrap",
    "Jpeg.C19_accuracy",
    "Jpeg.C19_grey",
    "Jpeg.C19_cmyk_to_ycck",
    "Jpeg.C19_cmyk_inverted"
   ],
   "note": ""
  },
  {
   "property": "C20",
   "status": "proved",
   "theorems": [
    "Jpeg.C20_tables_in_file",
    "Jpeg.C20_default_table",
    "Jpeg.C20_builtin_tables",
    "Jpeg.C20_range",
    "Jpeg.C20_clamped",
    "Jpeg.C20_monotone",
    "Jpeg.C20_quality_100",
    "Jpeg.C20_quality_50"
   ],
   "note": ""
  },
  {
   "property": "C21",
   "status": "proved",
   "theorems": [
    "Jpeg.C21_tables_in_file",
    "Jpeg.C21_file_entry_custom",
    "Jpeg.C21_false_above_255",
    "Jpeg.C21_any_table",
    "Jpeg.C21_undecodable"
   ],
   "note": ""
  },
  {
   "property": "C22",
   "status": "proved",
   "theorems": [
    "Jpeg.C22_error_bound",
    "Jpeg.C22_nearest_false",
    "Jpeg.C22_nearest_power_of_two",
    "Jpeg.C22_nearest_small",
    "Jpeg.C22_small_sharp",
    "Jpeg.C22_almost_nearest"
   ],
   "note": ""
  },
  {
   "property": "C23",
   "status": "proved",
   "theorems": [
    "Jpeg.C23_odd",
    "Jpeg.C23_monotone"
   ],
   "note": ""
  },
  {
   "property": "C24",
   "status": "proved",
   "theorems": [
    "Jpeg.C24_range_and_dc",
    "Jpeg.C24_constant"
   ],
   "note": ""
  },
  {
   "property": "C25",
   "status": "proved",
   "theorems": [
    "Jpeg.C25_dct_accuracy"
   ],
   "note": ""
  },
  {
   "property": "C26",
   "status": "proved",
   "theorems": [
    "Jpeg.C26_fdct",
    "Jpeg.C26_false",
    "Jpeg.C26_color"
   ],
   "note": "C26_fdct: where the AVX2 DCT agrees and by how much it can be off; C26_false: it does differ."
  },
  {
   "property": "C27",
   "status": "proved",
   "theorems": [
    "Jpeg.C27_capacity",
    "Jpeg.C27_avx2_no_ub"
   ],
   "note": "With optimised tables: the first symbol of every restart interval also occurs without restarts (trivial without restarts inside a component), and the AC symbols of a table are less than fib(35)-1 (always true for up to 146466 blocks), or less than 2^32-1 and either at most 32 different ones or such that no best code has more than 32 bits (Spec.CanOptimize; C10 and C11 show what happens otherwise)."
  },
  {
   "property": "C28",
   "status": "proved",
   "theorems": [
    "Jpeg.C28_from_factors",
    "Jpeg.C28_settings_determine_output",
    "Jpeg.C28_alias",
    "Jpeg.C28_alias_factors"
   ],
   "note": "With optimised tables: the first symbol of every restart interval also occurs without restarts (trivial without restarts inside a component), and the AC symbols of a table are less than fib(35)-1 (always true for up to 146466 blocks), or less than 2^32-1 and either at most 32 different ones or such that no best code has more than 32 bits (Spec.CanOptimize; C10 and C11 show what happens otherwise)."
  },
  {
   "property": "C29",
   "status": "proved",
   "theorems": [
    "Jpeg.C29_sampling_positions"
   ],
   "note": "With optimised tables: the first symbol of every restart interval also occurs without restarts (trivial without restarts inside a component), and the AC symbols of a table are less than fib(35)-1 (always true for up to 146466 blocks), or less than 2^32-1 and either at most 32 different ones or such that no best code has more than 32 bits (Spec.CanOptimize; C10 and C11 show what happens otherwise)."
  },
  {
   "property": "C30",
   "status": "proved",
   "theorems": [
    "Jpeg.C30_bands",
    "Jpeg.C30_false_above_33"
   ],
   "note": "False of the code for 34 and more scans (proved)."
  },
  {
   "property": "C31",
   "status": "proved",
   "theorems": [
    "Jpeg.C31_mcu_count"
   ],
   "note": ""
  },
  {
   "property": "C32",
   "status": "proved",
   "theorems": [
    "Jpeg.C32_frame_header"
   ],
   "note": ""
  },
  {
   "property": "C33",
   "status": "proved",
   "theorems": [
    "Jpeg.C33_segments_in_file",
    "Jpeg.C33_add_app_segment_ok",
    "Jpeg.C33_add_app_segment_err",
    "Jpeg.C33_documented_limit_false"
   ],
   "note": ""
  },
  {
   "property": "C34",
   "status": "proved",
   "theorems": [
    "Jpeg.C34_icc_in_file",
    "Jpeg.C34_icc_accepted",
    "Jpeg.C34_icc_rejected",
    "Jpeg.C34_documented_limit_false",
    "Jpeg.C34_two_profiles_false"
   ],
   "note": "The documented limit is false of the code (proved)."
  },
  {
   "property": "C35",
   "status": "proved",
   "theorems": [
    "Jpeg.C35_density"
   ],
   "note": ""
  },
  {
   "property": "C36",
   "status": "proved",
   "theorems": [
    "Jpeg.C36_adobe"
   ],
   "note": ""
  },
  {
   "property": "C37",
   "status": "proved",
   "theorems": [
    "Jpeg.C37_history"
   ],
   "note": ""
  },
  {
   "property": "C38",
   "status": "proved",
   "theorems": [
    "Jpeg.C38_limits"
   ],
   "note": ""
  },
  {
   "property": "C39",
   "status": "proved",
   "theorems": [
    "Jpeg.C39_magnitude_coding",
    "Jpeg.C39_injective"
   ],
   "note": ""
  },
  {
   "property": "C40",
   "status": "proved",
   "theorems": [
    "Jpeg.C40_zigzag",
    "Jpeg.C40_permutation"
   ],
   "note": ""
  },
  {
   "property": "C41",
   "status": "proved",
   "theorems": [
    "Jpeg.C41_coefficient_error"
   ],
   "note": "With optimised tables: the first symbol of every restart interval also occurs without restarts (trivial without restarts inside a component), and the AC symbols of a table are less than fib(35)-1 (always true for up to 146466 blocks), or less than 2^32-1 and either at most 32 different ones or such that no best code has more than 32 bits (Spec.CanOptimize; C10 and C11 show what happens otherwise)."
  },
  {
   "property": "C42",
   "status": "proved",
   "theorems": [
    "Jpeg.C42_reconstruction_error"
   ],
   "note": "With optimised tables: the first symbol of every restart interval also occurs without restarts (trivial without restarts inside a component), and the AC symbols of a table are less than fib(35)-1 (always true for up to 146466 blocks), or less than 2^32-1 and either at most 32 different ones or such that no best code has more than 32 bits (Spec.CanOptimize; C10 and C11 show what happens otherwise)."
  },
  {
   "property": "C43",
   "status": "proved",
   "theorems": [
    "Jpeg.C43_quality_100"
   ],
   "note": "With optimised tables: the first symbol of every restart interval also occurs without restarts (trivial without restarts inside a component), and the AC symbols of a table are less than fib(35)-1 (always true for up to 146466 blocks), or less than 2^32-1 and either at most 32 different ones or such that no best code has more than 32 bits (Spec.CanOptimize; C10 and C11 show what happens otherwise)."
  },
  {
   "property": "C44",
   "status": "proved",
   "theorems": [
    "Jpeg.C44_standard_huffman_tables"
   ],
   "note": ""
  },
  {
   "property": "C45",
   "status": "proved",
   "theorems": [
    "Jpeg.C45_initial_part",
    "Jpeg.C45_complete",
    "Jpeg.C45_ok",
    "Jpeg.C45_lost"
   ],
   "note": "std's BufWriter and write_all are modelled from their source and documentation; the operating system is an arbitrary finite list of answers followed by successes. File::create failing (nothing is encoded) is not modelled."
  },
  {
   "property": "C46",
   "status": "proved",
   "theorems": [
    "Jpeg.C46_table",
    "Jpeg.C46_optimal_tables",
    "Jpeg.C46_not_worse_than_standard",
    "Jpeg.C46_few_symbols",
    "Jpeg.C46_small_images"
   ],
   "note": "With the assumptions of Spec.CanOptimize. For AC tables whose longest codes have 16 bits (more than 2582 symbols) nothing is claimed: the length limiting procedure of T.81 is not optimal."
  },
  {
   "property": "C47",
   "status": "proved",
   "theorems": [
    "Jpeg.C47_flat_blocks",
    "Jpeg.C47_quality_100"
   ],
   "note": "With optimised tables: within Spec.CanOptimize."
  },
  {
   "property": "C48",
   "status": "proved",
   "theorems": [
    "Jpeg.C48_changes_are_local"
   ],
   "note": "With optimised tables: within Spec.CanOptimize."
  },
  {
   "property": "C49",
   "status": "proved",
   "theorems": [
    "Jpeg.C49_rgb_quality_100"
   ],
   "note": "With optimised tables: within Spec.CanOptimize. Samples at the edge blocks beyond the image continue the last column and line."
  },
  {
   "property": "C50",
   "status": "proved",
   "theorems": [
    "Jpeg.C50_grey_stays_grey"
   ],
   "note": "With optimised tables: within Spec.CanOptimize."
  },
  {
   "property": "C51",
   "status": "proved",
   "theorems": [
    "Jpeg.C51_self_delimiting",
    "Jpeg.C51_truncation_detected",
    "Jpeg.C51_stream",
    "Jpeg.C51_prefix_free"
   ],
   "note": "No condition on settings, image or build; also the outputs for inconsistent image buffers (C79) and those that cannot be decoded (C10, C11)."
  },
  {
   "property": "C52",
   "status": "proved",
   "theorems": [
    "Jpeg.C52_size_bound"
   ],
   "note": "Within Spec.Supported."
  },
  {
   "property": "C53",
   "status": "proved",
   "theorems": [
    "Jpeg.C53_encode",
    "Jpeg.C53_encode_image",
    "Jpeg.C53_scalar",
    "Jpeg.C53_bound_needed"
   ],
   "note": "C53_bound_needed: the condition on the size is needed (finding, see C16)."
  },
  {
   "property": "C54",
   "status": "proved",
   "theorems": [
    "Jpeg.C54_encode",
    "Jpeg.C54_encode_image"
   ],
   "note": "For every image size; includes the case of frequency counters that wrap around in release builds."
  },
  {
   "property": "C55",
   "status": "proved",
   "theorems": [
    "Jpeg.C55_simd_file"
   ],
   "note": "For settings and images within Spec.Supported on both builds. The default and simd builds differ in the forward DCT (finding, see C26)."
  },
  {
   "property": "C56",
   "status": "proved",
   "theorems": [
    "Jpeg.C56_sections"
   ],
   "note": "Within Spec.Supported; custom tables with entries of at most 255."
  },
  {
   "property": "C57",
   "status": "proved",
   "theorems": [
    "Jpeg.C57_encode",
    "Jpeg.C57_encode_image",
    "Jpeg.C57_add_app_segment",
    "Jpeg.C57_add_icc_profile"
   ],
   "note": "encode: if width x height x bytes per pixel fits a usize (always on 64 bit targets, see C16)."
  },
  {
   "property": "C58",
   "status": "proved",
   "theorems": [
    "Jpeg.C58_history",
    "Jpeg.C58_exchange",
    "Jpeg.C58_failed_call"
   ],
   "note": ""
  },
  {
   "property": "C59",
   "status": "proved",
   "theorems": [
    "Jpeg.C59_encode_image",
    "Jpeg.C59_encode"
   ],
   "note": ""
  },
  {
   "property": "C60",
   "status": "proved",
   "theorems": [
    "Jpeg.C60_quality"
   ],
   "note": "The subsampling in force must be the same (its default depends on the quality)."
  },
  {
   "property": "C61",
   "status": "proved",
   "theorems": [
    "Jpeg.C61_rgb_error"
   ],
   "note": ""
  },
  {
   "property": "C62",
   "status": "proved",
   "theorems": [
    "Jpeg.C62_rows_requested"
   ],
   "note": "For buffers whose answers change from call to call see C65."
  },
  {
   "property": "C63",
   "status": "proved",
   "theorems": [
    "Jpeg.C63_long_interval"
   ],
   "note": ""
  },
  {
   "property": "C64",
   "status": "proved",
   "theorems": [
    "Jpeg.C64_release_like_debug",
    "Jpeg.C64_debug_prefix"
   ],
   "note": "No hypothesis on the input. C10_restart_defect is a case where the debug build stops and the release build does not."
  },
  {
   "property": "C65",
   "status": "proved",
   "theorems": [
    "Jpeg.C65_rows_in_order",
    "Jpeg.C65_stream",
    "Jpeg.C65_same_program"
   ],
   "note": "Model/Live.lean: calls of fill_buffers are effects of the program. For width, height and color types that are not constant see C79."
  },
  {
   "property": "C66",
   "status": "proved",
   "theorems": [
    "Jpeg.C66_buffers_handed",
    "Jpeg.C66_baseline_bounded"
   ],
   "note": ""
  },
  {
   "property": "C67",
   "status": "proved",
   "theorems": [
    "Jpeg.C67_streamed",
    "Jpeg.C67_decodable",
    "Jpeg.C67_live",
    "Jpeg.C67_other_modes"
   ],
   "note": "The state of the writer at a request is observed by letting the image buffer panic there."
  },
  {
   "property": "C68",
   "status": "proved",
   "theorems": [
    "Jpeg.C68_ok_means_file",
    "Jpeg.C68_ok_means_file_pure"
   ],
   "note": "Hypotheses: tables with entries up to 255 (C21), TablesSafe if Huffman tables are optimised; `strict` decoding for at most 33 scans (C16)."
  },
  {
   "property": "C69",
   "status": "proved",
   "theorems": [
    "Jpeg.C69_debug_ok_correct",
    "Jpeg.C69_debug_encode_correct",
    "Jpeg.C69_debug_ok_means_file"
   ],
   "note": "Hypotheses: tables with entries up to 255 (C21); `strict` decoding for at most 33 scans (C16). In release builds the claim is false (C10_restart_defect)."
  },
  {
   "property": "C70",
   "status": "proved",
   "theorems": [
    "Jpeg.C70_preview",
    "Jpeg.C70_dc_first"
   ],
   "note": ""
  },
  {
   "property": "C71",
   "status": "proved",
   "theorems": [
    "Jpeg.C71_cmyk",
    "Jpeg.C71_cmyk_as_ycck",
    "Jpeg.C71_cmyk_subsampled",
    "Jpeg.C71_ycck_subsampled"
   ],
   "note": "the first two per 8x8 block without subsampling, the last two per MCU with any sampling factor"
  },
  {
   "property": "C72",
   "status": "proved",
   "theorems": [
    "Jpeg.C72_position_independent",
    "Jpeg.C72_tiles"
   ],
   "note": ""
  },
  {
   "property": "C73",
   "status": "proved",
   "theorems": [
    "Jpeg.C73_damage_is_local"
   ],
   "note": ""
  },
  {
   "property": "C74",
   "status": "proved",
   "theorems": [
    "Jpeg.C74_same_coefficients_same_file"
   ],
   "note": "Within Spec.Supported."
  },
  {
   "property": "C75",
   "status": "proved",
   "theorems": [
    "Jpeg.C75_second_generation",
    "Jpeg.C75_same_file",
    "Jpeg.C75_default_tables"
   ],
   "note": "For blocks that are shown without clamping (Spec.ShownAs)."
  },
  {
   "property": "C76",
   "status": "proved",
   "theorems": [
    "Jpeg.C76_brightness",
    "Jpeg.C76_block_means"
   ],
   "note": "Within Spec.Supported; tables with entries up to 255."
  },
  {
   "property": "C77",
   "status": "proved",
   "theorems": [
    "Jpeg.C77_equal_lines",
    "Jpeg.C77_equal_columns"
   ],
   "note": "Within Spec.Supported; tables with entries up to 255."
  },
  {
   "property": "C78",
   "status": "proved",
   "theorems": [
    "Jpeg.C78_initial_part",
    "Jpeg.C78_ok",
    "Jpeg.C78_short_writes",
    "Jpeg.C78_slice",
    "Jpeg.C78_slice_ok",
    "Jpeg.C78_is_sink"
   ],
   "note": "io::Write::write_all is modelled from the source of std (the default method)."
  },
  {
   "property": "C79",
   "status": "proved",
   "theorems": [
    "Jpeg.C79_safe",
    "Jpeg.C79_constant",
    "Jpeg.C79_pure",
    "Jpeg.C79_fickle_false"
   ],
   "note": "Model/Free.lean: all four methods of ImageBuffer are effects of the program, asked where the code asks."
  },
  {
   "property": "C80",
   "status": "proved",
   "theorems": [
    "Jpeg.C80_encode_rgb",
    "Jpeg.C80_encode_rgb_subsampled",
    "Jpeg.C80_encode_rgb_progressive",
    "Jpeg.C80_encode_ycck_progressive",
    "Jpeg.C80_encode_rgb_optimized",
    "Jpeg.C80_encode_rgb_custom_q_table",
    "Jpeg.C80_custom_q_table_undecodable"
   ],
   "note": "The square root in f64 is modelled as the exact integer square root (Model/Fuzz.lean says why)."
  },
  {
   "property": "C81",
   "status": "proved",
   "theorems": [
    "Jpeg.C81_subsampled_rgb",
    "Jpeg.C81_planes"
   ],
   "note": "Spec.shownSample repeats the chroma samples. Without subsampling see C49 and C61."
  },
  {
   "property": "C82",
   "status": "proved",
   "theorems": [
    "Jpeg.C82_gray_sampling"
   ],
   "note": "Within Spec.Supported for both encoders."
  },
  {
   "property": "C83",
   "status": "proved",
   "theorems": [
    "Jpeg.C83_judged",
    "Jpeg.C83_result",
    "Jpeg.C83_decodable",
    "Jpeg.C83_new_file"
   ],
   "note": "crash points: C83_judged is about every initial part"
  },
  {
   "property": "C84",
   "status": "proved",
   "theorems": [
    "Jpeg.C84_initial_part",
    "Jpeg.C84_outcome",
    "Jpeg.C84_vec"
   ],
   "note": "panics are modelled as results, see DESIGN; stateful image buffers: C79"
  },
  {
   "property": "C85",
   "status": "proved",
   "theorems": [
    "Jpeg.C85_result",
    "Jpeg.C85_call",
    "Jpeg.C85_writer"
   ],
   "note": "no condition on settings, image or build"
  },
  {
   "property": "C86",
   "status": "proved",
   "theorems": [
    "Jpeg.C86_bounded",
    "Jpeg.C86_always",
    "Jpeg.C86_image",
    "Jpeg.C86_encode"
   ],
   "note": "no condition on settings, image or build; C52 has the smaller bound for images that keep the rules"
  },
  {
   "property": "C87",
   "status": "proved",
   "theorems": [
    "Jpeg.C87_block",
    "Jpeg.C87_mcu"
   ],
   "note": "baseline mode needs only the same number of MCUs"
  },
  {
   "property": "C88",
   "status": "proved",
   "theorems": [
    "Jpeg.C88_lent",
    "Jpeg.C88_in_turn",
    "Jpeg.C88_vec"
   ],
   "note": "memory as lawful places (get/set)"
  },
  {
   "property": "C89",
   "status": "proved",
   "theorems": [
    "Jpeg.C89_refused",
    "Jpeg.C89_created",
    "Jpeg.C89_history",
    "Jpeg.C89_rejected",
    "Jpeg.C89_keeps_false"
   ],
   "note": "the last theorem shows that the expected property of failing calls is false"
  },
  {
   "property": "C90",
   "status": "proved",
   "theorems": [
    "Jpeg.C90_finer",
    "Jpeg.C90_quality",
    "Jpeg.C90_never_less_false"
   ],
   "note": "the last theorem shows that the expected exact monotonicity is false"
  },
  {
   "property": "C91",
   "status": "proved",
   "theorems": [
    "Jpeg.C91_component",
    "Jpeg.C91_luma",
    "Jpeg.C91_luma_settings"
   ],
   "note": ""
  },
  {
   "property": "C92",
   "status": "proved",
   "theorems": [
    "Jpeg.C92_content",
    "Jpeg.C92_flat"
   ],
   "note": ""
  },
  {
   "property": "C93",
   "status": "proved",
   "theorems": [
    "Jpeg.C93_size"
   ],
   "note": ""
  },
  {
   "property": "C94",
   "status": "proved",
   "theorems": [
    "Jpeg.C94_optimised",
    "Jpeg.C94_small_images"
   ],
   "note": "the property is about files in which the blocks are in the same order; with chroma subsampling the optimised file has the DC values of luma in another order, and C46 compares the tables"
  },
  {
   "property": "C95",
   "status": "proved",
   "theorems": [
    "Jpeg.C95_restarts"
   ],
   "note": ""
  },
  {
   "property": "C96",
   "status": "proved",
   "theorems": [
    "Jpeg.C96_same_program"
   ],
   "note": "On 32 bit targets for images of fewer than 2^31 pixels."
  },
  {
   "property": "C97",
   "status": "proved",
   "theorems": [
    "Jpeg.C97_files_tell_images_apart",
    "Jpeg.C97_samples",
    "Jpeg.C97_quality_100"
   ],
   "note": "Within Spec.Supported and for 8 bit tables, for both calls."
  },
  {
   "property": "C98",
   "status": "proved",
   "theorems": [
    "Jpeg.C98_pixel_error",
    "Jpeg.C98_quality_100",
    "Jpeg.C98_rgb",
    "Jpeg.C98_rgb_quality_100"
   ],
   "note": "Within Spec.Supported and for 8 bit tables; the decoder is exact up to the final rounding."
  },
  {
   "property": "C99",
   "status": "proved",
   "theorems": [
    "Jpeg.C99_any_decoder",
    "Jpeg.C99_quality_100",
    "Jpeg.C99_rgb"
   ],
   "note": "Within Spec.Supported and for 8 bit tables."
  },
  {
   "property": "C100",
   "status": "proved",
   "theorems": [
    "Jpeg.C100_least",
    "Jpeg.C100_optimised",
    "Jpeg.C100_data_size",
    "Jpeg.C100_no_file_smaller"
   ],
   "note": "Within Spec.Supported and for 8 bit tables; the upper bound for AC tables under the stated condition on code words of 16 bits."
  }
 ]
}