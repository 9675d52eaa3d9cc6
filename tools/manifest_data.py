M = {
"C01": ("proved", ["Jpeg.C01_baseline", "Jpeg.C01_baseline_image"], ""),
"C02": ("proved", ["Jpeg.C02_sequential", "Jpeg.C02_sequential_image"], "With optimised tables: the first symbol of every restart interval also occurs without restarts (trivial without restarts inside a component), and the AC symbols of a table are less than fib(35)-1 (always true for up to 146466 blocks), or less than 2^32-1 and either at most 32 different ones or such that no best code has more than 32 bits (Spec.CanOptimize; C10 and C11 show what happens otherwise)."),
"C03": ("proved", ["Jpeg.C03_progressive_image", "Jpeg.C03_progressive_image_lenient", "Jpeg.C03_encode_round_trip"], "With optimised tables: the first symbol of every restart interval also occurs without restarts (trivial without restarts inside a component), and the AC symbols of a table are less than fib(35)-1 (always true for up to 146466 blocks), or less than 2^32-1 and either at most 32 different ones or such that no best code has more than 32 bits (Spec.CanOptimize; C10 and C11 show what happens otherwise)."),
"C04": ("proved", ["Jpeg.C04_mode_independent"], "With optimised tables: the first symbol of every restart interval also occurs without restarts (trivial without restarts inside a component), and the AC symbols of a table are less than fib(35)-1 (always true for up to 146466 blocks), or less than 2^32-1 and either at most 32 different ones or such that no best code has more than 32 bits (Spec.CanOptimize; C10 and C11 show what happens otherwise)."),
"C15": ("proved", ["Jpeg.C15_short_data_rejected", "Jpeg.C15_fits_64", "Jpeg.C15_zero_dimension_image", "Jpeg.C15_zero_dimension_rejected", "Jpeg.C15_enough_data_accepted"], ""),
"C16": ("proved", ["Jpeg.C16_short_data_rejected", "Jpeg.C16_false", "Jpeg.C16_false_simd", "Jpeg.C16_overflow"], "The rejection is proved under width*height*bytes-per-pixel < 2^32 and refuted beyond it; C16_overflow says exactly what happens there."),
"C19": ("proved", ["Jpeg.C19_no_wrap", "Jpeg.C19_accuracy", "Jpeg.C19_grey", "Jpeg.C19_cmyk_to_ycck", "Jpeg.C19_cmyk_inverted"], ""),
"C37": ("proved", ["Jpeg.C37_history"], ""),
"C20": ("proved", ["Jpeg.C20_tables_in_file", "Jpeg.C20_default_table", "Jpeg.C20_builtin_tables", "Jpeg.C20_range", "Jpeg.C20_clamped", "Jpeg.C20_monotone", "Jpeg.C20_quality_100", "Jpeg.C20_quality_50"], ""),
"C22": ("proved", ["Jpeg.C22_error_bound", "Jpeg.C22_nearest_false", "Jpeg.C22_nearest_power_of_two", "Jpeg.C22_nearest_small", "Jpeg.C22_small_sharp", "Jpeg.C22_almost_nearest"], ""),
"C23": ("proved", ["Jpeg.C23_odd", "Jpeg.C23_monotone"], ""),
"C24": ("proved", ["Jpeg.C24_range_and_dc", "Jpeg.C24_constant"], ""),
"C39": ("proved", ["Jpeg.C39_magnitude_coding", "Jpeg.C39_injective"], ""),
"C40": ("proved", ["Jpeg.C40_zigzag", "Jpeg.C40_permutation"], ""),
"C14": ("proved", ["Jpeg.C14_encode", "Jpeg.C14_encode_image", "Jpeg.C14_recording_transparent", "Jpeg.C14_full_disk"], ""),
"C05": ("proved", ["Jpeg.C05_restart_markers"], ""),
"C06": ("proved", ["Jpeg.C06_no_false_marker"], ""),
"C08": ("proved", ["Jpeg.C08_tables_in_file", "Jpeg.C08_C11_optimized_table"], ""),
"C09": ("proved", ["Jpeg.C09_exactly_the_symbols"], "With optimised tables: the first symbol of every restart interval also occurs without restarts (trivial without restarts inside a component), and the AC symbols of a table are less than fib(35)-1 (always true for up to 146466 blocks), or less than 2^32-1 and either at most 32 different ones or such that no best code has more than 32 bits (Spec.CanOptimize)."),
"C10": ("proved", ["Jpeg.C10_restart_defect", "Jpeg.C10_restarts_work", "Jpeg.C10_debug_exact", "Jpeg.C10_release_exact"], "C10_restart_defect: a defect of the code, shown by a concrete image. C10_restarts_work: when it works. C10_debug_exact: the condition is exact in debug builds (success if it holds, panic if not). C10_release_exact: it is exact in release builds too (the call reports success in any case, and the file decodes to the image if and only if the condition holds)."),
"C11": ("proved", ["Jpeg.C08_C11_optimized_table", "Jpeg.C11_false"], "C11_false shows that the bound is sharp. short_equal: an example with 254 different symbols and 2^31 occurrences."),
"C21": ("proved", ["Jpeg.C21_tables_in_file", "Jpeg.C21_file_entry_custom", "Jpeg.C21_false_above_255", "Jpeg.C21_any_table", "Jpeg.C21_undecodable"], ""),
"C30": ("proved", ["Jpeg.C30_bands", "Jpeg.C30_false_above_33"], "False of the code for 34 and more scans (proved)."),
"C31": ("proved", ["Jpeg.C31_mcu_count"], ""),
"C32": ("proved", ["Jpeg.C32_frame_header"], ""),
"C33": ("proved", ["Jpeg.C33_segments_in_file", "Jpeg.C33_add_app_segment_ok", "Jpeg.C33_add_app_segment_err", "Jpeg.C33_documented_limit_false"], ""),
"C34": ("proved", ["Jpeg.C34_icc_in_file", "Jpeg.C34_icc_accepted", "Jpeg.C34_icc_rejected", "Jpeg.C34_documented_limit_false", "Jpeg.C34_two_profiles_false"], "The documented limit is false of the code (proved)."),
"C35": ("proved", ["Jpeg.C35_density"], ""),
"C36": ("proved", ["Jpeg.C36_adobe"], ""),
"C38": ("proved", ["Jpeg.C38_limits"], ""),
"C07": ("proved", ["Jpeg.C07_bit_packing", "Jpeg.C07_no_padding_when_aligned"], ""),
"C12": ("proved", ["Jpeg.C12_encode", "Jpeg.C12_encode_image", "Jpeg.C12_memory_false", "Jpeg.C12_memory_exact"], "C12_memory_false, C12_memory_exact: on 32 bit targets the memory condition is needed, and exact. With optimised tables: the first symbol of every restart interval also occurs without restarts (trivial without restarts inside a component), and the AC symbols of a table are less than fib(35)-1 (always true for up to 146466 blocks), or less than 2^32-1 and either at most 32 different ones or such that no best code has more than 32 bits (Spec.CanOptimize; C10 and C11 show what happens otherwise)."),
"C13": ("proved", ["Jpeg.C13_platform_independent", "Jpeg.C13_platform_independent_image", "Jpeg.C13_debug_decides"], "C13_debug_decides: no hypothesis on the settings or the image, if one debug build returns Ok. The others: With optimised tables: the first symbol of every restart interval also occurs without restarts (trivial without restarts inside a component), and the AC symbols of a table are less than fib(35)-1 (always true for up to 146466 blocks), or less than 2^32-1 and either at most 32 different ones or such that no best code has more than 32 bits (Spec.CanOptimize; C10 and C11 show what happens otherwise)."),
"C17": ("proved", ["Jpeg.C17_trailing_data", "Jpeg.C17_alpha_and_order", "Jpeg.C96_trailing_data", "Jpeg.C96_alpha_and_order"], "The C96 theorems (equal programs, so equal bytes or equal failures) have no hypotheses on the configuration. The C17 theorems also say that the encodings succeed: With optimised tables: the first symbol of every restart interval also occurs without restarts (trivial without restarts inside a component), and the AC symbols of a table are less than fib(35)-1 (always true for up to 146466 blocks), or less than 2^32-1 and either at most 32 different ones or such that no best code has more than 32 bits (Spec.CanOptimize; C10 and C11 show what happens otherwise)."),
"C18": ("proved", ["Jpeg.C18_same_planes", "Jpeg.C18_documented_example", "Jpeg.C96_same_program", "Jpeg.C96_documented_example"], "The C96 theorems (equal programs, so equal bytes or equal failures) have no hypotheses on the configuration. The C18 theorems also say that the encodings succeed: With optimised tables: the first symbol of every restart interval also occurs without restarts (trivial without restarts inside a component), and the AC symbols of a table are less than fib(35)-1 (always true for up to 146466 blocks), or less than 2^32-1 and either at most 32 different ones or such that no best code has more than 32 bits (Spec.CanOptimize; C10 and C11 show what happens otherwise)."),
"C26": ("proved", ["Jpeg.C26_fdct", "Jpeg.C26_false", "Jpeg.C26_color"], "C26_fdct: where the AVX2 DCT agrees and by how much it can be off; C26_false: it does differ."),
"C27": ("proved", ["Jpeg.C27_capacity", "Jpeg.C27_avx2_no_ub"], "With optimised tables: the first symbol of every restart interval also occurs without restarts (trivial without restarts inside a component), and the AC symbols of a table are less than fib(35)-1 (always true for up to 146466 blocks), or less than 2^32-1 and either at most 32 different ones or such that no best code has more than 32 bits (Spec.CanOptimize; C10 and C11 show what happens otherwise)."),
"C28": ("proved", ["Jpeg.C28_from_factors", "Jpeg.C28_settings_determine_output", "Jpeg.C28_alias", "Jpeg.C28_alias_factors"], "With optimised tables: the first symbol of every restart interval also occurs without restarts (trivial without restarts inside a component), and the AC symbols of a table are less than fib(35)-1 (always true for up to 146466 blocks), or less than 2^32-1 and either at most 32 different ones or such that no best code has more than 32 bits (Spec.CanOptimize; C10 and C11 show what happens otherwise)."),
"C29": ("proved", ["Jpeg.C29_sampling_positions"], "With optimised tables: the first symbol of every restart interval also occurs without restarts (trivial without restarts inside a component), and the AC symbols of a table are less than fib(35)-1 (always true for up to 146466 blocks), or less than 2^32-1 and either at most 32 different ones or such that no best code has more than 32 bits (Spec.CanOptimize; C10 and C11 show what happens otherwise)."),
"C25": ("proved", ["Jpeg.C25_dct_accuracy"], ""),
"C41": ("proved", ["Jpeg.C41_coefficient_error"], "With optimised tables: the first symbol of every restart interval also occurs without restarts (trivial without restarts inside a component), and the AC symbols of a table are less than fib(35)-1 (always true for up to 146466 blocks), or less than 2^32-1 and either at most 32 different ones or such that no best code has more than 32 bits (Spec.CanOptimize; C10 and C11 show what happens otherwise)."),
"C42": ("proved", ["Jpeg.C42_reconstruction_error"], "With optimised tables: the first symbol of every restart interval also occurs without restarts (trivial without restarts inside a component), and the AC symbols of a table are less than fib(35)-1 (always true for up to 146466 blocks), or less than 2^32-1 and either at most 32 different ones or such that no best code has more than 32 bits (Spec.CanOptimize; C10 and C11 show what happens otherwise)."),
"C43": ("proved", ["Jpeg.C43_quality_100"], "With optimised tables: the first symbol of every restart interval also occurs without restarts (trivial without restarts inside a component), and the AC symbols of a table are less than fib(35)-1 (always true for up to 146466 blocks), or less than 2^32-1 and either at most 32 different ones or such that no best code has more than 32 bits (Spec.CanOptimize; C10 and C11 show what happens otherwise)."),
"C45": ("proved", ["Jpeg.C45_initial_part", "Jpeg.C45_complete", "Jpeg.C45_ok", "Jpeg.C45_lost"], "std's BufWriter and write_all are modelled from their source and documentation; the operating system is an arbitrary finite list of answers followed by successes. File::create failing (nothing is encoded) is not modelled."),
"C44": ("proved", ["Jpeg.C44_standard_huffman_tables"], ""),
"C46": ("proved", ["Jpeg.C46_table", "Jpeg.C46_optimal_tables", "Jpeg.C46_not_worse_than_standard", "Jpeg.C46_few_symbols", "Jpeg.C46_small_images"], "With the assumptions of Spec.CanOptimize. For AC tables whose longest codes have 16 bits (more than 2582 symbols) nothing is claimed: the length limiting procedure of T.81 is not optimal."),
"C47": ("proved", ["Jpeg.C47_flat_blocks", "Jpeg.C47_quality_100"], "With optimised tables: within Spec.CanOptimize."),
"C48": ("proved", ["Jpeg.C48_changes_are_local"], "With optimised tables: within Spec.CanOptimize."),
"C49": ("proved", ["Jpeg.C49_rgb_quality_100"], "With optimised tables: within Spec.CanOptimize. Samples at the edge blocks beyond the image continue the last column and line."),
"C50": ("proved", ["Jpeg.C50_grey_stays_grey"], "With optimised tables: within Spec.CanOptimize."),
"C51": ("proved", ["Jpeg.C51_self_delimiting", "Jpeg.C51_truncation_detected", "Jpeg.C51_stream", "Jpeg.C51_prefix_free"], "No condition on settings, image or build; also the outputs for inconsistent image buffers (C79) and those that cannot be decoded (C10, C11)."),
"C52": ("proved", ["Jpeg.C52_size_bound"], "Within Spec.Supported."),
"C53": ("proved", ["Jpeg.C53_encode", "Jpeg.C53_encode_image", "Jpeg.C53_scalar", "Jpeg.C53_bound_needed"], "C53_bound_needed: the condition on the size is needed (finding, see C16)."),
"C54": ("proved", ["Jpeg.C54_encode", "Jpeg.C54_encode_image"], "For every image size; includes the case of frequency counters that wrap around in release builds."),
"C55": ("proved", ["Jpeg.C55_simd_file"], "For settings and images within Spec.Supported on both builds. The default and simd builds differ in the forward DCT (finding, see C26)."),
"C56": ("proved", ["Jpeg.C56_sections"], "Within Spec.Supported; custom tables with entries of at most 255."),
"C57": ("proved", ["Jpeg.C57_encode", "Jpeg.C57_encode_image", "Jpeg.C57_add_app_segment", "Jpeg.C57_add_icc_profile"], "encode: if width x height x bytes per pixel fits a usize (always on 64 bit targets, see C16)."),
"C58": ("proved", ["Jpeg.C58_history", "Jpeg.C58_exchange", "Jpeg.C58_failed_call"], ""),
"C59": ("proved", ["Jpeg.C59_encode_image", "Jpeg.C59_encode"], ""),
"C60": ("proved", ["Jpeg.C60_quality"], "The subsampling in force must be the same (its default depends on the quality)."),
"C61": ("proved", ["Jpeg.C61_rgb_error"], ""),
"C62": ("proved", ["Jpeg.C62_rows_requested"], "For buffers whose answers change from call to call see C65."),
"C63": ("proved", ["Jpeg.C63_long_interval"], ""),
"C64": ("proved", ["Jpeg.C64_release_like_debug", "Jpeg.C64_debug_prefix"], "No hypothesis on the input. C10_restart_defect is a case where the debug build stops and the release build does not."),
"C65": ("proved", ["Jpeg.C65_rows_in_order", "Jpeg.C65_stream", "Jpeg.C65_same_program"], "Model/Live.lean: calls of fill_buffers are effects of the program. For width, height and color types that are not constant see C79."),
"C66": ("proved", ["Jpeg.C66_buffers_handed", "Jpeg.C66_baseline_bounded"], ""),
"C67": ("proved", ["Jpeg.C67_streamed", "Jpeg.C67_decodable", "Jpeg.C67_live", "Jpeg.C67_other_modes"], "The state of the writer at a request is observed by letting the image buffer panic there."),
"C68": ("proved", ["Jpeg.C68_ok_means_file", "Jpeg.C68_ok_means_file_pure"], "Hypotheses: tables with entries up to 255 (C21), TablesSafe if Huffman tables are optimised; `strict` decoding for at most 33 scans (C16)."),
"C69": ("proved", ["Jpeg.C69_debug_ok_correct", "Jpeg.C69_debug_encode_correct", "Jpeg.C69_debug_ok_means_file"], "Hypotheses: tables with entries up to 255 (C21); `strict` decoding for at most 33 scans (C16). In release builds the claim is false (C10_restart_defect)."),
"C70": ("proved", ["Jpeg.C70_preview", "Jpeg.C70_dc_first"], ""),
"C71": ("proved", ["Jpeg.C71_cmyk", "Jpeg.C71_cmyk_as_ycck", "Jpeg.C71_cmyk_subsampled", "Jpeg.C71_ycck_subsampled"], "the first two per 8x8 block without subsampling, the last two per MCU with any sampling factor"),
"C72": ("proved", ["Jpeg.C72_position_independent", "Jpeg.C72_tiles"], ""),
"C73": ("proved", ["Jpeg.C73_damage_is_local"], ""),
"C74": ("proved", ["Jpeg.C74_same_coefficients_same_file"], "Within Spec.Supported."),
"C75": ("proved", ["Jpeg.C75_second_generation", "Jpeg.C75_same_file", "Jpeg.C75_default_tables"], "For blocks that are shown without clamping (Spec.ShownAs)."),
"C76": ("proved", ["Jpeg.C76_brightness", "Jpeg.C76_block_means"], "Within Spec.Supported; tables with entries up to 255."),
"C77": ("proved", ["Jpeg.C77_equal_lines", "Jpeg.C77_equal_columns"], "Within Spec.Supported; tables with entries up to 255."),
"C78": ("proved", ["Jpeg.C78_initial_part", "Jpeg.C78_ok", "Jpeg.C78_short_writes", "Jpeg.C78_slice", "Jpeg.C78_slice_ok", "Jpeg.C78_is_sink"], "io::Write::write_all is modelled from the source of std (the default method)."),
"C79": ("proved", ["Jpeg.C79_safe", "Jpeg.C79_constant", "Jpeg.C79_pure", "Jpeg.C79_fickle_false"], "Model/Free.lean: all four methods of ImageBuffer are effects of the program, asked where the code asks."),
"C80": ("proved", ["Jpeg.C80_encode_rgb", "Jpeg.C80_encode_rgb_subsampled", "Jpeg.C80_encode_rgb_progressive", "Jpeg.C80_encode_ycck_progressive", "Jpeg.C80_encode_rgb_optimized", "Jpeg.C80_encode_rgb_custom_q_table", "Jpeg.C80_custom_q_table_undecodable"], "The square root in f64 is modelled as the exact integer square root (Model/Fuzz.lean says why)."),
"C81": ("proved", ["Jpeg.C81_subsampled_rgb", "Jpeg.C81_planes"], "Spec.shownSample repeats the chroma samples. Without subsampling see C49 and C61."),
"C82": ("proved", ["Jpeg.C82_gray_sampling"], "Within Spec.Supported for both encoders."),
"C83": ("proved", ["Jpeg.C83_judged", "Jpeg.C83_result", "Jpeg.C83_decodable", "Jpeg.C83_new_file"], "crash points: C83_judged is about every initial part"),
"C84": ("proved", ["Jpeg.C84_initial_part", "Jpeg.C84_outcome", "Jpeg.C84_vec"], "panics are modelled as results, see DESIGN; stateful image buffers: C79"),
"C85": ("proved", ["Jpeg.C85_result", "Jpeg.C85_call", "Jpeg.C85_writer"], "no condition on settings, image or build"),
"C86": ("proved", ["Jpeg.C86_bounded", "Jpeg.C86_always", "Jpeg.C86_image", "Jpeg.C86_encode"], "no condition on settings, image or build; C52 has the smaller bound for images that keep the rules"),
"C87": ("proved", ["Jpeg.C87_block", "Jpeg.C87_mcu"], "baseline mode needs only the same number of MCUs"),
"C88": ("proved", ["Jpeg.C88_lent", "Jpeg.C88_in_turn", "Jpeg.C88_vec"], "memory as lawful places (get/set)"),
"C89": ("proved", ["Jpeg.C89_refused", "Jpeg.C89_created", "Jpeg.C89_history", "Jpeg.C89_rejected", "Jpeg.C89_keeps_false"], "the last theorem shows that the expected property of failing calls is false"),
"C90": ("proved", ["Jpeg.C90_finer", "Jpeg.C90_quality", "Jpeg.C90_never_less_false"], "the last theorem shows that the expected exact monotonicity is false"),
"C91": ("proved", ["Jpeg.C91_component", "Jpeg.C91_luma", "Jpeg.C91_luma_settings"], ""),
"C92": ("proved", ["Jpeg.C92_content", "Jpeg.C92_flat"], ""),
"C93": ("proved", ["Jpeg.C93_size"], ""),
"C94": ("proved", ["Jpeg.C94_optimised", "Jpeg.C94_small_images"], "the property is about files in which the blocks are in the same order; with chroma subsampling the optimised file has the DC values of luma in another order, and C46 compares the tables"),
"C95": ("proved", ["Jpeg.C95_restarts"], ""),
"C97": ("proved", ["Jpeg.C97_files_tell_images_apart", "Jpeg.C97_samples", "Jpeg.C97_quality_100"], "Within Spec.Supported and for 8 bit tables, for both calls."),
"C96": ("proved", ["Jpeg.C96_same_program"], "On 32 bit targets for images of fewer than 2^31 pixels."),
"C98": ("proved", ["Jpeg.C98_pixel_error", "Jpeg.C98_quality_100", "Jpeg.C98_rgb", "Jpeg.C98_rgb_quality_100"], "Within Spec.Supported and for 8 bit tables; the decoder is exact up to the final rounding."),
"C99": ("proved", ["Jpeg.C99_any_decoder", "Jpeg.C99_quality_100", "Jpeg.C99_rgb"], "Within Spec.Supported and for 8 bit tables."),
"C100": ("proved", ["Jpeg.C100_least", "Jpeg.C100_optimised", "Jpeg.C100_data_size", "Jpeg.C100_no_file_smaller"], "Within Spec.Supported and for 8 bit tables; the upper bound for AC tables under the stated condition on code words of 16 bits."),
}
