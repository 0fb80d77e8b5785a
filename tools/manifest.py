#!/usr/bin/env python3
"""Writes MANIFEST.json; checks that every theorem named exists in lean/Verif."""
import json, re, pathlib
root = pathlib.Path(__file__).resolve().parent.parent
C = {
"C01": ("proved", ["C01_constructors", "C01_alloc"], ""),
"C02": ("partial", ["C02_violated", "C02_stride_accessor_partial"], "The property is false of the code: validate() rejects stride 0. Proved: the negation for every such image, and that the stride accessor itself follows the documentation."),
"C03": ("proved", ["C03_errors"], "Every format and both entry points; the call returning is C22."),
"C04": ("proved", ["C04_error_untouched"], ""),
"C05": ("proved", ["C05_size_check"], ""),
"C06": ("partial", ["C06_violated", "C06_intermediate_fits_partial"], "False of the code on 32-bit targets (witness); holds unless the width shrinks and the height grows."),
"C07": ("proved", ["C07_same_size"], ""),
"C08": ("partial", ["C08_violated", "C08_convolution_partial"], "False for same-size copies and Nearest (witnesses); proved for convolution resizes."),
"C09": ("partial", ["C09_no_oob_partial", "C09_violated", "C09_violated_panics"], "Proved up to 2^24 per source dimension; false beyond (witness)."),
"C10": ("proved", ["C10_whole_pixels"], "Source dimensions up to 2^24, packed images."),
"C11": ("partial", ["C11_violated", "C11_packed_partial"], "False of the code; proved for packed images."),
"C12": ("partial", ["C12_nearest_partial", "C12_violated"], "False of the code (off by one pixel when enlarging); proved within one pixel."),
"C13": ("partial", ["C13_windows_partial", "C13_windows_any_filter", "C13_area_violated"], "Proved for all filters, Area only up to 2^22 output coordinates; false for Area beyond (witness)."),
"C14": ("proved", ["C14_padding"], ""),
"C15": ("partial", ["C15_normalised_partial", "C15_positive_kernels_partial", "positive_kernels", "C15_violated", "C15_violated_jinc", "C116_normalised"], "False of the code for Bartlett and Jinc filters (witnesses); proved in exact arithmetic: sum is one or all weights are zero, always one for averaging filters; proved in binary32 arithmetic, with an error bound, for the support-two averaging filters (C116)."),
"C16": ("partial", ["C16_nonneg_partial", "C16_nonneg_any_kernel", "C16_violated"], "Proved in binary32 for Bilinear, Box, Area, Quadric, EwaQuadric, Welch, Hann, and for Hamming, Hanning, Gaussian and Kaiser if the mathematical library keeps its bounds (LibmBounds); false for Hermite (binary32 witness)."),
"C17": ("proved", ["C17_quantised"], ""),
"C18": ("proved", ["C18_horizontal_pass"], "Scalar path."),
"C19": ("proved", ["C19_vertical_pass"], "Scalar path."),
"C20": ("partial", ["C20_violated"], "False of the code: the vertical pass truncates."),
"C21": ("proved", ["C21_separable", "C21_separable_u16", "noOverflow_of_taps"], "8-bit and 16-bit fixed point and float; f32 in C45_resize. Scalar path."),
"C22": ("proved", ["C22_resize_no_panic", "C22_passes_no_panic"], "8-bit, scalar path."),
"C23": ("proved", ["C23_output_range", "C23_resize_range_u16"], "Every integer format."),
"C24": ("proved", ["C24_no_overflow", "C24_i16_256_taps"], ""),
"C25": ("proved", ["C25_channels_independent", "C25_channels_independent_u16", "C25_channels_independent_f32"], "Convolution filters; scalar path."),
"C26": ("proved", ["C26_locality", "C26_locality_u16", "C26_locality_f32"], "Scalar path."),
"C27": ("proved", ["C27_schedules_agree", "C27_schedule_is_sequential", "C27_resize", "C27_resize_with_alpha", "C27_resize_ar30"], "Pool = any interleaving of the element accesses of the row tasks (sequentially consistent; the tasks are race free, C51). Scalar handlers."),
"C51": ("proved", ["C51_no_infinite_execution", "C51_no_deadlock", "C51_no_race", "C51_writes_stay_in_chunk"], ""),
"C28": ("proved", ["C28_thread_count"], ""),
"C29": ("proved", ["C29_monotone"], "8-bit; the filters of C16_nonneg_partial."),
"C30": ("partial", ["C30_violated", "C30_flat_partial", "C117_flat_u8"], "False of the code (witness); proved within one level when the quantised weights sum to 2^15 up to 64, which C117 establishes for averaging filters."),
"C31": ("proved", ["C31_division", "C31_no_overflow"], ""),
"C32": ("partial", ["C32_violated", "C32_premultiply_partial", "C32_alpha_kept_iff"], "False of the scalar code: alpha is squared (witness; kept only for alpha 0 and 255). Proved: colours, padding, and the exact alpha."),
"C33": ("partial", ["C33_violated", "C33_unpremultiply_partial"], "Proved for premultiplied pixels (p <= a); out-of-range colours do not saturate (witness)."),
"C34": ("partial", ["C34_violated", "C34_round_trip_partial"], "Holds for the colour arithmetic with the original alpha; false for the pixels the code produces, because alpha is squared (witness)."),
"C35": ("partial", ["C35_violated", "C35_premultiply_partial", "C35_unpremultiply_partial"], "False of the scalar code: both operations change alpha (witness; unpremultiplication makes every non-zero alpha max or max-1). Proved: colours within 1 + 1/64, padding."),
"C36": ("proved", ["C36_float", "C36_inverse"], "Scalar path."),
"C37": ("proved", ["C37_alpha_check", "C37_alpha_check_f32"], "Scalar path; RGBA8 below 2^24 pixels wide."),
"C38": ("partial", ["C38_violated", "C38_constant_alpha_partial"], "False of the code (witness: colour 100 becomes 199). Proved: exact relation of the two modes; they agree where the resized alpha is 255."),
"C45": ("proved", ["C45_horizontal", "C45_vertical", "C45_resize"], "For every float arithmetic in which adding a product to zero gives that product (so up to the sign of a zero in IEEE)."),
"C46": ("proved", ["C46_alpha_pipeline"], "Colours not above the resized alpha (the others follow the overlapping table, see C33)."),
"C47": ("partial", ["C47_opaque_u8_partial", "C47_opaque_u16_partial", "C47_violated"], "Proved for 8 bit and depths 1..=12; false for depths 13..=16 (witnesses)."),
"C48": ("proved", ["C48_fixed", "C48_float", "C48_float_small"], "Scalar path; fixed point under the no-overflow condition of C24."),
"C39": ("proved", ["C39_roundtrip"], "Both layouts, both orders, both machine endiannesses; translucent pixels become opaque, as the format code intends."),
"C40": ("partial", ["C40_violated", "C40_rows_partial", "resize30_exact"], "False of the code (witness): in the last height % 4 rows windows other than 2, 3, 4, 6 pixels use size/4 taps. Proved for windows of 2, 3, 4, 6 pixels; resize30_exact gives the exact number of taps in every case."),
"C41": ("partial", ["C41_vertical_stride_violated", "C41_copy_violated", "C41_nearest_unwritten", "C41_nearest_panic_violated", "C41_strides_partial"], "False of the code for vertical-only resizes and equal sizes with different strides, and for Nearest (witnesses; below four rows Nearest writes nothing, for every image). Proved for all other convolution resizes."),
"C49": ("partial", ["C49_separable_partial", "resize30_exact"], "Proved when the height is a multiple of four or the windows have 2, 3, 4 or 6 pixels, and (vertical-only) equal strides; false otherwise, see C40, C41."),
"C50": ("proved", ["C50_errors"], ""),
"C42": ("proved", ["C42_error_codes"], ""),
"C43": ("proved", ["C43_filter_ids"], ""),
"C44": ("partial", ["C44_violated", "C44_packed_partial"], "False for padded images (witness); proved for packed ones."),
"C52": ("proved", ["C52_no_oob"], "Calls whose handlers the CPU supports (C57); default crate features (sse, avx), no nightly_avx512."),
"C53": ("partial", ["C53_quality_partial", "C53_sse_white", "C53_violated"], "False of the code: without AVX2 the SSE4.1 vertical handler turns columns of rows longer than 32 bytes white (missing shift); C53_sse_white proves exactly which. Proved otherwise, except RGB with AVX2 (C58) and CPUs without SSE4.1 (scalar vertical pass truncates)."),
"C54": ("partial", ["C54_speed_partial", "C54_error", "C54_black", "C54_violated"], "Formula and error bound proved where 16-bit accumulators cannot wrap; a flat picture of 200 becomes 201 (witness)."),
"C55": ("partial", ["C55_channels_partial", "C55_violated"], "False of the code: AVX2 RGBA PreferSpeed weighs alpha differently in windows of more than 8 taps (witness)."),
"C56": ("partial", ["C56_cpu_partial", "C56_violated"], "False of the code (witness: 3 against 4). Proved with PreferQuality among CPUs that round."),
"C57": ("partial", ["C57_supported_iff", "C57_violated"], "False of the code (witness); C57_supported_iff says exactly which calls use an instruction the CPU lacks."),
"C58": ("partial", ["C58_locality_partial", "C58_violated"], "False of the code for RGB with AVX2 (witness); proved for everything else."),
"C59": ("proved", ["C59_aligned", "C59_codes"], "For u8, u16 and f32 entry points; source and destination do not overlap."),
"C60": ("partial", ["C60_source_partial", "C60_violated"], "False of the code: unaligned sources are read with the wrong step unless the sample size equals the channel count; unaligned destinations are undefined behaviour or wrong (witnesses). C60_source_partial proves the source case that works."),
"C61": ("proved", ["C61_premultiply", "C61_extremes"], ""),
"C62": ("partial", ["C62_unpremultiply_partial", "C62_violated"], "False of the code with AVX2 for colours above 128 with alpha 1: they become 0 (witness, for every reciprocal within its specification); proved otherwise."),
"C63": ("partial", ["C63_alpha_pipeline_partial", "C63_violated"], "The exact composition is proved for every accepted call. False of the code for constant alpha (witness: 200 becomes 0 or 255), and with AVX2 the premultiplied copy has squared alpha."),
"C64": ("partial", ["C64_alpha_check_partial", "C64_violated"], "Proved for RGBA8 below 2^24 pixels wide and RGBA16 up to 32768 wide; false for RGBA16 images 131072 pixels wide (witness: 32-bit sums wrap)."),
"C65": ("partial", ["C65_round_trip_partial", "C65_violated"], "Proved for SSE4.1; false with AVX2, which squares alpha (witness)."),
"C66": ("partial", ["C66_alpha_kept_partial", "C66_violated"], "Proved for SSE4.1; false with AVX2 (witness). The scalar code squares alpha too (C32)."),
"C67": ("proved", ["C67_premultiply"], ""),
"C68": ("partial", ["C68_premultiply_partial", "C68_violated"], "False of the code: every opaque colour above 32768 becomes 0 (signed 16-bit products). Proved for samples below 32768."),
"C69": ("partial", ["C69_premultiply_partial", "C69_extremes", "C69_violated"], "False of the code with FMA: white becomes 2^d (half added before rounding to nearest). Proved without FMA."),
"C70": ("proved", ["C70_alpha_kept"], ""),
"C71": ("partial", ["C71_unpremultiply_partial", "C71_violated"], "False of the code for SSE4.1 at 16 bits: every straight colour above 33000 becomes 32767 (signed pack). Proved otherwise."),
"C72": ("partial", ["C72_fits_depth_partial", "C72_violated"], "False of the code with FMA and with SSE4.1 (opaque white becomes 2^d). Proved for AVX2 without FMA up to 10 bits."),
"C73": ("proved", ["C73_premultiply"], "Finite samples without overflow (infinities are not modelled)."),
"C74": ("proved", ["C74_unpremultiply"], "Finite samples without overflow."),
"C75": ("partial", ["C75_columns_partial", "C75_violated"], "False of the code: the vector chunk divides, the scalar remainder multiplies by the reciprocal (witness: colour 5, alpha 3 in a row of 9). Proved within chunks and within the remainder."),
"C76": ("proved", ["C76_u16_no_oob"], ""),
"C77": ("partial", ["C77_vertical_reads", "C77_vertical_columns_partial", "C77_widths", "C77_violated"], "False of the code: the column counter is not advanced past the last full group, so tails show columns of that group (witness). C77_vertical_reads says which column for every width; C77_widths that the listed widths are exactly the good ones."),
"C78": ("proved", ["C78_horizontal_exact"], "In-range samples, accumulators below 2^30."),
"C79": ("proved", ["C79_range_lb"], "Accumulators below 2^30."),
"C80": ("proved", ["C80_range_deep"], ""),
"C81": ("partial", ["C81_rows_alike_partial", "C81_violated"], "False of the code: the SSE4.1 single-row RGBA handler uses other taps than the code for groups of four rows (witness). Proved otherwise."),
"C82": ("partial", ["C82_cpu_partial", "C82_violated"], "False of the code: the portable code truncates, the vector code rounds (witness). Proved: same among vector CPUs, at most one apart otherwise."),
"C83": ("proved", ["C83_flat_rows_lb"], ""),
"C84": ("partial", ["C84_channels_partial", "C84_violated"], "False of the code: see C77; blue is taken from red (witness)."),
"C85": ("partial", ["C79_range_lb", "C85_violated"], "False of the code: a 10-bit destination receives 32768 (witness). Proved for in-range samples (C79)."),
"C86": ("partial", ["C86_flat_rows_partial", "C86_violated"], "False of the code for rows whose number of samples is not a multiple of four with SSE4.1 (witness). Proved otherwise."),
"C87": ("proved", ["C87_f32_no_oob"], ""),
"C88": ("proved", ["C88_f32_vertical", "C88_f32_vertical_cpus"], "Finite samples (no signed zero in the model)."),
"C89": ("proved", ["C89_f32_two_three", "C89_f32_two_three_fma"], "Finite samples (no signed zero in the model)."),
"C90": ("proved", ["C90_f32_accuracy_vertical", "C90_f32_accuracy_horizontal", "C90_f32_accuracy_both", "C90_f32_cpus_close", "C90_bound_size"], "Exact sums use the table's weights; unbounded exponent (no overflow to infinity) as in the F32 model."),
"C91": ("partial", ["C91_f32_accuracy_plane_partial", "C91_f32_accuracy_plane_both_partial", "C91_violated"], "False of the code: in the rows after the last group of four, windows of more than 16 taps add some taps twice (17 x 5 plane of ones: last row 1.498). Proved for rows in groups of four and for windows of up to 16 taps."),
"C92": ("proved", ["C92_equal_rows"], ""),
"C93": ("partial", ["C93_equal_rows_partial", "C93_violated_four", "C91_violated"], "False of the code: single rows use another summation (one channel, more than 16 taps) or no FMA (four channels, AVX2). Proved for rows of the same kind and for one channel with windows of up to 16 taps."),
"C94": ("proved", ["C94_f32_locality"], ""),
"C95": ("partial", ["C95_f32_cpus_partial", "C95_violated"], "False of the code: the order of addition depends on the CPU. Proved when no horizontal window has more than two taps; C90 bounds the difference otherwise."),
"C96": ("proved", ["C96_alpha_pipeline_f32"], "Finite samples."),
"C97": ("proved", ["C97_alpha_same"], "Finite samples."),
"C98": ("partial", ["C98_constant_alpha_partial", "C98_violated"], "False of the code: constant-alpha pictures are not premultiplied but divided (witness: 8 becomes 16). Proved: the exact relation."),
"C99": ("proved", ["C99_rgb", "C99_rgba"], "Conversions of colorutils_rs are arbitrary per-pixel functions; rows fit u32."),
"C100": ("proved", ["C100_transfer_function", "C100_linear_approx"], "Approximate linear RGBA without premultiplication."),
"C101": ("partial", ["C101_linear_rgba_partial", "C101_violated"], "False of the code: sRGB is hard-wired in LinearScaler::resize_rgba (witness). Proved: what it computes."),
"C102": ("partial", ["C102_padding_partial", "C102_padding_rgba_partial", "C102_violated"], "False of the code (witness: flat 10 becomes 48/22 and the destination padding is overwritten). Proved: what it computes, for all strides."),
"C103": ("proved", ["C103_same_size"], ""),
"C104": ("proved", ["C104_errors"], "Images whose channel field is right and whose rows fit u32."),
"C105": ("partial", ["C105_cbcr_partial", "C105_violated"], "False of the code: all nine colour scalers panic. Proved for the ordinary scaler."),
"C106": ("proved", ["C106_locality"], "Pictures without row padding; all scalers but LinearApproxScaler (whose inner 8-bit resize is C58)."),
"C107": ("partial", ["C107_alpha_locality_partial", "C107_violated"], "False of the code (witness: the alpha of a far pixel turns 8 into 16). Proved when both pictures have varying or both constant alpha."),
"C108": ("proved", ["C108_no_oob"], "Every processor, no assumption about pixels, sums or filter; a purely vertical call needs equal strides (C41)."),
"C109": ("proved", ["C109_vertical"], "Under Safe30 (accumulators below 2^30, met by every window of at most 31 taps)."),
"C110": ("partial", ["C110_separable_partial", "C110_violated"], "False of the code for windows of more than four pixels (witness: 295 instead of 344). Proved for windows of at most four pixels and heights divisible by four."),
"C111": ("partial", ["C111_last_rows", "C111_green_lost", "C111_violated"], "False of the code: the last height % 4 rows always lose green and half of red and blue. What they contain is proved."),
"C112": ("proved", ["C112_flat_rows"], ""),
"C113": ("proved", ["C113_errors"], ""),
"C114": ("proved", ["C114_locality"], "Under Safe30."),
"C115": ("proved", ["C115_no_overflow", "C115_resize_u8", "C115_low_precision", "weights_bounded", "AcceptedCall.u8", "AcceptedCall.u8X86", "AcceptedCall16.lb", "Call30.safe"], "Discharges the no-overflow hypothesis of the integer resize theorems (portable, x86, 10/12-bit, packed) for averaging filters."),
"C116": ("proved", ["C116_normalised", "averaging_of"], ""),
"C117": ("proved", ["C117_flat_u8", "near64", "quantised_near"], ""),
"C118": ("partial", ["C118_black", "C118_doubled", "box_row_value"], "False of the code: with Box, 65537 or more pixels to one gives black whatever the picture, 65536 pixels to one doubles the brightness. C117 is the part that holds."),
"C119": ("proved", ["C119_f16_no_oob"], "Portable and x86 code; any arithmetic and conversions."),
"C120": ("proved", ["C120_f16_padding"], ""),
"C121": ("partial", ["C121_f16_padding_partial", "C121_violated"], "False of the code: the portable horizontal handlers (one and two channels on every processor) overwrite all row padding with zeros. Proved what they write; C120 is the part that holds."),
"C122": ("proved", ["C122_f16_value", "C122_f16_cpus"], "binary32 without overflow to infinity."),
"C123": ("proved", ["C123_f16_locality"], ""),
"C124": ("proved", ["C124_f16_accuracy_height", "C124_f16_accuracy_width", "C124_f16_accuracy_both"], ""),
"C125": ("proved", ["C125_widen_fallback", "C125_widen_finite"], ""),
"C126": ("proved", ["C126_narrow_fallback", "C126_round_trip", "C126_narrow_ieee"], ""),
"C127": ("partial", ["C127_narrow_ieee_partial", "C127_sign_dropped", "C127_overflow_nan", "C127_infinity_widened", "C127_never_negative", "C127_violated"], "False of the code with SSE4.1 and no F16C: signs are dropped, overflow and infinity become NaN, infinity is read as 65536. Proved for the IEEE conversions."),
"C128": ("proved", ["C128_premultiply_f16"], "Minus zero as alpha outside full blocks is excepted (the model does not follow the sign of zero)."),
"C129": ("partial", ["C129_premultiply_sse_partial", "C129_violated"], "False of the code: negative products in full blocks lose their sign. Proved for products from 0 to 65520 and for the pixels after the last full block."),
"C130": ("partial", ["C130_unpremultiply_f16_partial", "C130_blocks_multiply", "C130_violated"], "False of the code: full blocks are multiplied by alpha instead (witness: 1/2 at alpha 1/2 becomes 1/4). Proved for the pixels after the last full block; what blocks contain is proved."),
"C131": ("proved", ["C131_unpremultiply_f16_frame"], ""),
"C132": ("proved", ["C132_alpha_pipeline_f16", "premultiplied_f16"], ""),
"C133": ("proved", ["C133_alpha_same_f16"], "No alpha of the source is a minus zero."),
"C134": ("partial", ["C134_colours_f16_partial", "C134_violated"], "False of the code (witness: -2 at alpha 1/2 comes back as -1/2 in a row of 17). Proved for the pixels after the last full block and for pixels of alpha 0."),
"C135": ("proved", ["C135_alpha_pipeline_u16"], "All depths, all vector CPUs."),
"C136": ("proved", ["C136_alpha_same_u16"], ""),
"C137": ("partial", ["C137_colours_u16_partial", "C137_violated"], "False of the code: an image of constant alpha is divided without having been multiplied, and colours above alpha leave the depth (witness). Proved for pixels whose resized colour does not exceed the resized alpha."),
"C138": ("proved", ["C138_neon_no_oob"], ""),
"C139": ("proved", ["C139_neon_values"], "Accumulators below 2^30 (for example windows of at most 128 taps, accumFits_of_taps)."),
"C140": ("partial", ["C140_columns_partial", "C140_violated"], "False of the code: with rows of 8 to 15 bytes after blocks of 16 and three-tap windows, bytes 4 to 7 of the remainder use the second weight for the third row (witness: two identical columns become 73 and 109). Proved otherwise."),
"C141": ("partial", ["C141_plane_black", "C141_violated"], "False of the code: the sums of the 4-tap and 1-tap steps are dropped; proved that every picture turns black when no window has more than 8 taps."),
"C142": ("proved", ["C142_rdm_values"], "The no-overflow condition is the one of C54."),
"C143": ("partial", ["C143_columns_partial", "C143_violated"], "False of the code: with rows of 16 to 31 bytes after blocks of 32 and four-tap windows the fourth row uses the third weight (witness: 58 instead of 12). Proved otherwise."),
"C144": ("proved", ["C144_strategy_irrelevant"], ""),
"C145": ("proved", ["C145_portable_agreement"], ""),
"C146": ("proved", ["C146_neon_locality"], ""),
"C147": ("proved", ["C147_premultiply_neon", "C147_portable"], ""),
"C148": ("partial", ["C148_alpha_kept_partial", "C148_violated"], "Proved for the first width / 16 * 16 columns; false in the others, where alpha is squared (witness: a row of 17 equal pixels; there alpha survives iff it is 0 or 255)."),
"C149": ("proved", ["C149_unpremultiply_neon"], ""),
"C150": ("partial", ["C150_portable_partial", "C150_violated", "C150_violated_white"], "Proved to within one level; false as an equality (witnesses: colour 133 with alpha 143; white with alpha 39 becomes 254)."),
"C151": ("partial", ["C151_alpha_check_partial", "C151_violated"], "Proved up to 2^23 pixels per row; false for rows of 2^25 pixels (32-bit sums wrap, witness)."),
"C152": ("partial", ["C152_alpha_check_partial", "C152_violated"], "Proved up to 32768 pixels per row; false for rows of 131072 pixels (32-bit sums wrap, witness)."),
"C153": ("proved", ["C153_alpha_pipeline_neon"], ""),
"C154": ("partial", ["C154_round_trip_partial", "C154_violated"], "Proved for the first width / 16 * 16 columns; false in the others (witness: colour 100, alpha 100 returns as colour 254, alpha 39)."),
"C155": ("proved", ["C155_premultiply_neon"], ""),
"C156": ("proved", ["C156_premultiply_neon"], ""),
"C157": ("partial", ["C157_premultiply_neon_partial", "C157_violated"], "Proved: 51/100 plus 1/430 (1/220) of the value; false as stated (witness: white 1023 becomes 1022, 4095 becomes 4088)."),
"C158": ("proved", ["C158_unpremultiply_neon"], ""),
"C159": ("partial", ["C159_violated"], "False (witnesses: 16 bits, 65535 with alpha 65534 gives 0; 10 bits, 1023 with alpha 512 gives 2044). The true part, colours not above alpha, is C158."),
"C160": ("partial", ["C160_unpremultiply_neon_partial", "C160_violated"], "Proved: the value at both depths, the range at 10 bits; the range fails at 12 bits (witness: white 4095 becomes 4096)."),
"C161": ("proved", ["C161_alpha_kept_neon"], ""),
"C162": ("proved", ["C162_premultiply_neon"], ""),
"C163": ("proved", ["C163_unpremultiply_neon"], ""),
"C164": ("proved", ["C164_neon_as_sse"], ""),
"C165": ("partial", ["C165_columns_neon_partial", "C165_violated"], "Proved for two columns both in or both outside full blocks of four; false between block and remainder (witness: five equal pixels)."),
"C166": ("proved", ["C166_f32_neon_no_oob"], ""),
"C167": ("partial", ["C167_f32_neon_no_oob_partial", "C167_violated"], "Proved when no row leaves 5-7 samples modulo 8, or the rows are padded to a multiple of 8; false otherwise (witnesses: unpadded 5 x 2 plane to 5 x 1, reads three samples past the end; also 2 and 3 channels)."),
"C168": ("proved", ["C168_f32_neon_portable", "C168_f32_neon_rgba"], ""),
"C169": ("proved", ["C169_f32_neon_x86"], ""),
"C170": ("proved", ["C170_f32_neon_accuracy_vertical", "C170_f32_neon_accuracy_horizontal", "C170_f32_neon_accuracy_both"], ""),
"C171": ("partial", ["C171_f32_neon_plane_partial", "C171_violated"], "Proved for rows in groups of four and for windows of at most 16 taps; false for the last height % 4 rows with larger windows (witness: 17 x 5 plane of ones to 1 x 5)."),
"C172": ("proved", ["C172_f32_neon_equal_rows"], ""),
"C173": ("partial", ["C173_f32_neon_equal_rows_partial", "C171_violated"], "Proved for two rows both inside or both outside the groups of four; false between them (C171_violated)."),
"C174": ("proved", ["C174_f32_neon_locality"], ""),
"C175": ("proved", ["C175_alpha_pipeline_neon"], ""),
"C176": ("proved", ["C176_alpha_same_neon"], ""),
"C177": ("partial", ["C177_constant_alpha_neon_partial", "C177_violated"], "Exact result proved; the property is false: constant alpha skips the premultiplication but not the division (flat picture of colour 8, alpha 1/2 gets colour 16)."),
"C178": ("proved", ["C178_u16_neon_no_oob"], ""),
"C179": ("proved", ["C179_u16_neon_range"], ""),
"C180": ("proved", ["C180_u16_neon_horizontal"], ""),
"C181": ("partial", ["C181_u16_neon_portable_partial", "C181_violated"], "Equal but for exact halves of RGBA images, which are one less (witness)."),
"C182": ("partial", ["C182_u16_neon_vertical", "C182_u16_neon_columns_partial", "C182_violated"], "Columns read are given exactly for every width; own column only for row lengths of a multiple of 16, at most 4, or 8; false otherwise (witness)."),
"C183": ("partial", ["C183_u16_neon_channels_partial", "C183_violated"], "Proved for those row lengths; false otherwise (blue from red)."),
"C184": ("proved", ["C184_u16_neon_flat_rows", "C184_u16_neon_flat_rows_float"], ""),
"C185": ("proved", ["C185_u16_neon_portable_deep"], ""),
"C186": ("proved", ["C186_u16_neon_deep_accuracy"], ""),
"C187": ("proved", ["C187_u16_neon_half_accuracy"], ""),
"C188": ("partial", ["C188_u16_neon_half_same_partial", "C188_violated"], "Proved above 12 bits and when the height is kept; false otherwise: a flat 12-bit picture of 2049 becomes 2048 in half precision."),
"C189": ("partial", ["C189_u16_neon_vertical_portable_partial", "C189_violated"], "NEON rounds, the portable code truncates: equal or one more (witness)."),
"C190": ("proved", ["C190_alpha_pipeline_neon16"], ""),
"C191": ("proved", ["C191_alpha_same_neon16"], ""),
"C192": ("partial", ["C192_colours_neon16_partial", "C192_violated"], "Proved where the resized colour does not exceed the resized alpha; otherwise it leaves the depth, and pictures of constant alpha are divided without having been multiplied (witness)."),
"C193": ("proved", ["C193_no_oob"], ""),
"C194": ("proved", ["C194_errors"], ""),
"C195": ("proved", ["C195_vertical"], ""),
"C196": ("partial", ["C196_separable_partial", "C196_violated"], "Proved for windows of up to four pixels; in longer windows the code pairs weights with permuted pixels (witness: 378 instead of 344)."),
"C197": ("proved", ["C197_flat_rows"], ""),
"C198": ("proved", ["C198_locality"], ""),
"C199": ("proved", ["C199_columns"], ""),
"C200": ("partial", ["C200_white_partial", "C200_violated"], "Proved for weight sums of at least one whose scaled sums fit 16 bits; Catmull-Rom saturates (witness: white becomes 983 in the first 8 columns)."),
"C201": ("partial", ["C201_rows_partial", "C201_violated"], "Proved for windows of up to eight pixels in rows handled four at a time; longer windows are permuted (witness: 99 instead of 111)."),
"C202": ("proved", ["C202_equal_rows"], ""),
"C203": ("partial", ["C203_equal_rows_partial", "C203_violated"], "Proved for rows both in, or both outside, the blocks of four; a leftover row is resized by other arithmetic (witness: 378 against 344)."),
"C204": ("proved", ["C204_threads_x86_u8", "C204_threads_x86_u16", "C204_threads_x86_f32", "C204_threads_x86_ar30"], ""),
"C205": ("proved", ["C205_threads_neon_u8", "C205_threads_neon_u16", "C205_threads_neon_f32", "C205_threads_neon_ar30"], ""),
"C206": ("proved", ["C206_threads_alpha_x86_u8", "C206_threads_alpha_x86_u16", "C206_threads_alpha_x86_f32"], ""),
"C207": ("proved", ["C207_threads_alpha_neon_u8", "C207_threads_alpha_neon_u16", "C207_threads_alpha_neon_f32"], ""),
"C208": ("partial", ["C208_single_needs_no_threads_partial", "C208_violated"], "Fails for RGBA16 with alpha where SSE4.1 is the best instruction set: the sequential arm of the unpremultiplication says par_chunks_exact_mut and runs on rayon's global pool. Proved elsewhere."),
"C209": ("proved", ["C209_ar30_copy_nearest_x86", "C209_ar30_copy_nearest_neon", "C209_nearest_unwritten"], ""),
"C210": ("proved", ["C210_x86_monotone"], ""),
"C211": ("proved", ["C211_neon_monotone"], ""),
"C212": ("proved", ["C212_range_portable"], "The loss of one in a vertical pass is real: the portable vertical pass truncates."),
"C213": ("proved", ["C213_range_x86_quality", "C213_range_x86_speed"], "The CPUs, widths and channel counts of C53 and C54."),
"C214": ("proved", ["C214_range_neon", "C214_range_rdm"], "The channel counts and windows of C139 and C142."),
"C215": ("proved", ["C215_accuracy_portable"], ""),
"C216": ("proved", ["C216_accuracy_x86_quality", "C216_accuracy_x86_speed", "C216_small"], "The CPUs, widths and channel counts of C53 and C54."),
"C217": ("proved", ["C217_accuracy_neon", "C217_accuracy_rdm"], "The channel counts and windows of C139 and C142."),
"C218": ("proved", ["C218_speed_quality"], "The channel counts of C53 and C54."),
"C219": ("proved", ["C219_x86_portable"], "Not RGB with a change of width (other handlers)."),
"C220": ("proved", ["C220_x86_neon"], ""),
"C221": ("proved", ["C221_same_as_avx2"], ""),
"C222": ("proved", ["C222_no_oob"], ""),
"C223": ("proved", ["C223_vnni_values"], ""),
"C224": ("partial", ["C224_equal_rows_partial", "C224_violated"], "False in general: a white opaque 3x5 image gets samples 254, alpha included, in its last row. Proved when both rows are in the same class or windows exceed four taps."),
"C225": ("proved", ["C225_vnni_vs_avx2"], ""),
"C226": ("proved", ["C226_premultiply"], ""),
"C227": ("partial", ["C227_unpremultiply", "C227_values_partial"], "Same exception as C62: colour above 128 with alpha 1 becomes 0."),
"C228": ("partial", ["C228_check", "C228_check_partial", "C228_violated"], "False unless the width is a multiple of 16: the columns after the last block of 16 are ignored, so an image narrower than 16 pixels always counts as constant. C228_check says exactly what is answered."),
"C229": ("partial", ["C229_alpha_pipeline_partial", "C229_violated_narrow", "C229_violated"], "False when alpha varies only in the last width mod 16 columns: the image is not premultiplied but is divided by alpha (grey 100 becomes 199)."),
"C230": ("proved", ["C230_u16_no_oob", "C230_same"], ""),
"C231": ("proved", ["C231_values"], "When no accumulator reaches 2^30 (AcceptedLb)."),
"C232": ("proved", ["C232_range"], "When no accumulator reaches 2^30 (AcceptedLb)."),
"C233": ("proved", ["C233_neon_f16_no_oob"], "Any arithmetic and conversions."),
"C234": ("partial", ["C234_neon_f16_padding_partial", "C234_neon_f16_padding_zeroed", "C234_violated"], "Fails for one and two channels (and four without f16c) if the width changes: padding is zeroed."),
"C235": ("proved", ["C235_neon_f16_value"], "Binary32 arithmetic; also any width-keeping resize of any channel count."),
"C236": ("partial", ["C236_neon_rgba_value_partial", "C236_violated"], "The fourth tap of every step of four multiplies the second pixel (all three variants, both workloads); right for windows of up to four pixels."),
"C237": ("partial", ["C237_neon_rgb_fast_partial", "C237_violated"], "Loads of rgb_f16_full.rs do not advance: blue takes red, weights 2 and 3 of a step meet the wrong samples."),
"C238": ("proved", ["C238_neon_f16_locality"], "Except fast RGB, which depends on all channels of the window (see C237)."),
"C239": ("partial", ["C239_neon_f16_rows_partial", "C239_violated"], "RGBA rows of a group of four and single rows differ for windows of more than eight pixels (C236)."),
"C240": ("proved", ["C240_neon_f16_accuracy", "F16.weightUsed_near"], "For samples without a misplaced tap (TapsRight), if no sum can reach 65520; weights as used by the path."),
"C241": ("proved", ["C241_premultiply_neon_f16"], "Finite samples; infinities on overflow; without fp16 a minus zero alpha in the remainder may become plus zero."),
"C242": ("proved", ["C242_unpremultiply_neon_f16_frame"], ""),
"C243": ("partial", ["C243_unpremultiply_neon_f16_partial", "C243_violated"], "With half arithmetic pixels of alpha 0 keep their colour; dividing by a minus zero (possible without half arithmetic) is outside the model."),
"C244": ("proved", ["C244_premultiply_everywhere_f16"], "No alpha a minus zero."),
"C245": ("proved", ["C245_alpha_pipeline_neon_f16"], ""),
"C246": ("proved", ["C246_alpha_same_neon_f16"], "Without half arithmetic: no alpha a minus zero."),
"C247": ("partial", ["C247_colours_neon_f16_partial", "C247_violated"], "With half arithmetic pixels whose resized alpha is 0 keep the premultiplied colour."),
"C248": ("proved", ["C248_shift_columns", "C248_shift_rows"], "8-bit, portable code."),
"C249": ("partial", ["C249_extent_partial", "C249_complete_partial", "C249_bilinear_violated", "C249_cubic_violated"], "Holds at whole-number reductions up to half the kernel size (every filter), hence completely for Bilinear and Hermite; fails for enlargements (a tap is dropped right of each pixel centre) and for the cubic filters (half their support is never read)."),
"C250": ("partial", ["C250_linear_partial", "C250_violated"], "Enlargements of the width by powers of two: linear in left halves of pixels and at the edges; elsewhere the source pixel itself."),
"C251": ("partial", ["C251_columns_partial", "C251_rows_partial", "C251_violated"], "False: the mean of 2 n pixels around the block is computed (proved, with error bound)."),
"C252": ("partial", ["C252_columns_partial", "C252_rows_partial", "C252_bilinear_violated"], "Exact for even reductions with Box and Area; false for enlargements with Bilinear. Other filters at reductions: not treated."),
"C253": ("proved", ["C253_c_f16_x86", "C253_c_f16_neon"], "Sequential handlers; source and destination do not overlap; up to 2^23 pixels per source dimension."),
"C254": ("partial", ["C254_c_u8_x86_partial", "C254_c_u8_neon_partial", "C254_c_u16_x86", "C254_c_u16_neon"], "16-bit: with any flags. 8-bit: RGBA without premultiplication, on x86 where the CPU has the instructions of the kernels picked."),
"C255": ("partial", ["C255_flat_partial", "C255_linear_partial", "C255_higher_partial", "C255_bartlett_violated", "C255_hermite_violated", "C255_truncated_violated"], "Exact arithmetic. False of Bartlett; degree 1 false of Hermite; false of ten filters with the radius the library uses for enlargements (half of min_kernel_size). Kernels with libm functions are not covered."),
"C256": ("partial", ["C256_interpolates_partial", "C256_same_kernels", "C256_violated"], "Exact arithmetic. False of Bartlett and of the Lanczos*Jinc kernels (jinc(0) = 0, so a pixel has no weight at its own position)."),
"C257": ("partial", ["C257_nearer_partial", "C257_bartlett_violated", "C257_window_violated", "C257_jinc_violated"], "Bilinear, Quadric, Welch, Kaiser (with LibmBounds), Box and (reductions) Area; 8-bit, width only, sizes in a dyadic ratio, nearer pixel inside the window. False across the window edge (the window omits its right end), of Bartlett and of Lanczos*Jinc."),
"C258": ("proved", ["C258_middle"], "Any odd ratios within 2^22 pixels, both directions at once, on the binary32 tables and the fixed point passes. The darkening is the truncation of the vertical pass."),
"C259": ("proved", ["C259_no_bleed_u8", "C259_no_bleed_x86", "C259_no_bleed_neon", "C259_no_bleed_u16", "C259_no_bleed_u16X86", "C259_no_bleed_u16Neon"], "The passes of the format are arbitrary, so this holds of every pass the model has. Without a visible pixel the alpha check finds nothing to do and colours are resized as they are; alpha of the result is then 0."),
"C260": ("proved", ["C260_no_bleed_f32", "C260_no_bleed_f32Neon", "C260_no_bleed_f16", "C260_no_bleed_f16Neon"], "f32 samples are rationals (no infinities or NaN); f16 samples are bit patterns of finite values, alpha 0 is +0 or -0."),
"C261": ("partial", ["C261_no_bleed_partial", "C261_violated"], "Widths that are multiples of 16. False of narrow pictures: the AVX-512 alpha check reports constant alpha, so nothing is premultiplied, but the result is divided by alpha all the same."),
"C262": ("proved", ["C262_kaiser"], "binary32; with it Kaiser (and Hamming, Hanning, Gaussian) joins the averaging filters of C16, C29, C115, C210, C211 and, Kaiser only, C257."),
"C263": ("proved", ["C263_weights", "C263_no_overflow", "C263_resize_u8"], "the Robidoux filters assume that the constant sqrt2 of the library is the binary32 number nearest to it. Lanczos and Jinc filters in reductions are not covered (their kernels are arbitrary functions here)."),
"C264": ("partial", ["C264_family", "C264_robidoux_sharp", "C264_violated"], "proved for Cubic, BSpline, Hermite, MitchellNetravalli, CatmullRom, Bicubic, RobidouxSharp; false for Robidoux: bc_spline.rs has 13 / (58 + 216 sqrt2) where the published filter has 113 / (58 + 216 sqrt2)."),
"C265": ("proved", ["C265_normalised"], "the Robidoux filters assume that sqrt2 of the library is the binary32 number nearest to it"),
"C266": ("partial", ["C266_flat_partial", "C266_violated"], "Proved when each dimension is kept or reduced to half or less (windows of at most 124 pixels). False of the code otherwise: doubling a flat grey of 200 with Catmull-Rom gives columns of 182, because normalised weights above one do not fit the 16-bit weights; Bicubic and MitchellNetravalli likewise, and even 8 -> 7 pixels gives 183."),
"C267": ("partial", ["C267_flat_f32", "C267_flat_f32_neon"], "Planes on CPUs with SSE4.1 and on AArch64: only for windows of at most 16 pixels or heights divisible by four (false otherwise, C91_violated, C171_violated). Robidoux assumes that sqrt2 of the library is correctly rounded."),
"C268": ("proved", ["C268_f32_monotone", "C268_f32_monotone_neon"], "AArch64: sizes for which the vertical handlers stay in bounds (NeonSafe, C167)."),
"C269": ("proved", ["C269_f32_negated", "C269_f32_negated_neon"], "Signed zeros are not modelled. AArch64: NeonSafe (C167)."),
"C270": ("partial", ["C270_f32_range", "C270_f32_range_neon", "C270_f32_nonneg"], "The upper and lower ends for planes only as in C267 (false otherwise); C270_f32_nonneg without restriction."),
"C271": ("proved", ["C271_u16_monotone", "C271_u16_monotone_neon", "C271_u16_monotone_512"], ""),
"C272": ("proved", ["C272_deep_monotone", "C272_deep_monotone_neon"], ""),
"C273": ("proved", ["C273_window_reach", "C273_window_size", "C273_reach_u8", "C273_reach_x86", "C273_reach_neon", "C273_reach_f32", "C273_reach_f32_neon"], "x86: not RGB with AVX2 when the width changes, where it is false (C58_violated)."),
"C274": ("proved", ["C274_range_u16", "C274_range_u16_neon", "C274_range_u16_512", "C274_levels"], ""),
"C275": ("proved", ["C275_negative_u8", "C275_negative_x86", "C275_negative_neon", "C275_negative_u16", "C275_negative_u16_neon", "C275_negative_u16_avx512", "negErr_levels"], "x86, 8 bits: the CPUs and formats of C53; AArch64, 8 bits: those of C139."),
}
def main():
    src = "\n".join(p.read_text() for p in (root / "lean/Verif").rglob("*.lean"))
    names = set(re.findall(r"^theorem\s+([\w.]+)", src, re.M))
    ids = [json.loads(l)["id"] for l in (root / "properties.jsonl").read_text().splitlines() if l.strip()]
    claims = []
    for i in ids:
        if i not in C:
            print("no claim for", i); continue
        st, th, note = C[i]
        for t in th:
            if t not in names: raise SystemExit(f"{i}: no theorem {t}")
        claims.append({"property": i, "status": st, "theorems": ["PicScale." + t for t in th], "note": note})
    (root / "MANIFEST.json").write_text(json.dumps({"claims": claims}, indent=1) + "\n")
    print(len(claims), "claims")
main()
