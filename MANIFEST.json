{
 "claims": [
  {
   "property": "C01",
   "status": "proved",
   "theorems": [
    "PicScale.C01_constructors",
    "PicScale.C01_alloc"
   ],
   "note": ""
  },
  {
   "property": "C02",
   "status": "partial",
   "theorems": [
    "PicScale.C02_violated",
    "PicScale.C02_stride_accessor_partial"
   ],
   "note": "The property is false of the code: validate() rejects stride 0. Proved: the negation for every such image, and that the stride accessor itself follows the documentation."
  },
  {
   "property": "C03",
   "status": "proved",
   "theorems": [
    "PicScale.C03_errors"
   ],
   "note": "Every format and both entry points; the call returning is C22."
  },
  {
   "property": "C04",
   "status": "proved",
   "theorems": [
    "PicScale.C04_error_untouched"
   ],
   "note": ""
  },
  {
   "property": "C05",
   "status": "proved",
   "theorems": [
    "PicScale.C05_size_check"
   ],
   "note": ""
  },
  {
   "property": "C06",
   "status": "partial",
   "theorems": [
    "PicScale.C06_violated",
    "PicScale.C06_intermediate_fits_partial"
   ],
   "note": "False of the code on 32-bit targets (witness); holds unless the width shrinks and the height grows."
  },
  {
   "property": "C07",
   "status": "proved",
   "theorems": [
    "PicScale.C07_same_size"
   ],
   "note": ""
  },
  {
   "property": "C08",
   "status": "partial",
   "theorems": [
    "PicScale.C08_violated",
    "PicScale.C08_convolution_partial"
   ],
   "note": "False for same-size copies and Nearest (witnesses); proved for convolution resizes."
  },
  {
   "property": "C09",
   "status": "partial",
   "theorems": [
    "PicScale.C09_no_oob_partial",
    "PicScale.C09_violated",
    "PicScale.C09_violated_panics"
   ],
   "note": "Proved up to 2^24 per source dimension; false beyond (witness)."
  },
  {
   "property": "C10",
   "status": "proved",
   "theorems": [
    "PicScale.C10_whole_pixels"
   ],
   "note": "Source dimensions up to 2^24, packed images."
  },
  {
   "property": "C11",
   "status": "partial",
   "theorems": [
    "PicScale.C11_violated",
    "PicScale.C11_packed_partial"
   ],
   "note": "False of the code; proved for packed images."
  },
  {
   "property": "C12",
   "status": "partial",
   "theorems": [
    "PicScale.C12_nearest_partial",
    "PicScale.C12_violated"
   ],
   "note": "False of the code (off by one pixel when enlarging); proved within one pixel."
  },
  {
   "property": "C13",
   "status": "partial",
   "theorems": [
    "PicScale.C13_windows_partial",
    "PicScale.C13_windows_any_filter",
    "PicScale.C13_area_violated"
   ],
   "note": "Proved for all filters, Area only up to 2^22 output coordinates; false for Area beyond (witness)."
  },
  {
   "property": "C14",
   "status": "proved",
   "theorems": [
    "PicScale.C14_padding"
   ],
   "note": ""
  },
  {
   "property": "C15",
   "status": "partial",
   "theorems": [
    "PicScale.C15_normalised_partial",
    "PicScale.C15_positive_kernels_partial",
    "PicScale.positive_kernels",
    "PicScale.C15_violated",
    "PicScale.C15_violated_jinc",
    "PicScale.C116_normalised"
   ],
   "note": "False of the code for Bartlett and Jinc filters (witnesses); proved in exact arithmetic: sum is one or all weights are zero, always one for averaging filters; proved in binary32 arithmetic, with an error bound, for the support-two averaging filters (C116)."
  },
  {
   "property": "C16",
   "status": "partial",
   "theorems": [
    "PicScale.C16_nonneg_partial",
    "PicScale.C16_nonneg_any_kernel",
    "PicScale.C16_violated"
   ],
   "note": "Proved in binary32 for Bilinear, Box, Area, Quadric, EwaQuadric, Welch, Hann, and for Hamming, Hanning, Gaussian and Kaiser if the mathematical library keeps its bounds (LibmBounds); false for Hermite (binary32 witness)."
  },
  {
   "property": "C17",
   "status": "proved",
   "theorems": [
    "PicScale.C17_quantised"
   ],
   "note": ""
  },
  {
   "property": "C18",
   "status": "proved",
   "theorems": [
    "PicScale.C18_horizontal_pass"
   ],
   "note": "Scalar path."
  },
  {
   "property": "C19",
   "status": "proved",
   "theorems": [
    "PicScale.C19_vertical_pass"
   ],
   "note": "Scalar path."
  },
  {
   "property": "C20",
   "status": "partial",
   "theorems": [
    "PicScale.C20_violated"
   ],
   "note": "False of the code: the vertical pass truncates."
  },
  {
   "property": "C21",
   "status": "proved",
   "theorems": [
    "PicScale.C21_separable",
    "PicScale.C21_separable_u16",
    "PicScale.noOverflow_of_taps"
   ],
   "note": "8-bit and 16-bit fixed point and float; f32 in C45_resize. Scalar path."
  },
  {
   "property": "C22",
   "status": "proved",
   "theorems": [
    "PicScale.C22_resize_no_panic",
    "PicScale.C22_passes_no_panic"
   ],
   "note": "8-bit, scalar path."
  },
  {
   "property": "C23",
   "status": "proved",
   "theorems": [
    "PicScale.C23_output_range",
    "PicScale.C23_resize_range_u16"
   ],
   "note": "Every integer format."
  },
  {
   "property": "C24",
   "status": "proved",
   "theorems": [
    "PicScale.C24_no_overflow",
    "PicScale.C24_i16_256_taps"
   ],
   "note": ""
  },
  {
   "property": "C25",
   "status": "proved",
   "theorems": [
    "PicScale.C25_channels_independent",
    "PicScale.C25_channels_independent_u16",
    "PicScale.C25_channels_independent_f32"
   ],
   "note": "Convolution filters; scalar path."
  },
  {
   "property": "C26",
   "status": "proved",
   "theorems": [
    "PicScale.C26_locality",
    "PicScale.C26_locality_u16",
    "PicScale.C26_locality_f32"
   ],
   "note": "Scalar path."
  },
  {
   "property": "C27",
   "status": "proved",
   "theorems": [
    "PicScale.C27_schedules_agree",
    "PicScale.C27_schedule_is_sequential",
    "PicScale.C27_resize",
    "PicScale.C27_resize_with_alpha",
    "PicScale.C27_resize_ar30"
   ],
   "note": "Pool = any interleaving of the element accesses of the row tasks (sequentially consistent; the tasks are race free, C51). Scalar handlers."
  },
  {
   "property": "C28",
   "status": "proved",
   "theorems": [
    "PicScale.C28_thread_count"
   ],
   "note": ""
  },
  {
   "property": "C29",
   "status": "proved",
   "theorems": [
    "PicScale.C29_monotone"
   ],
   "note": "8-bit; the filters of C16_nonneg_partial."
  },
  {
   "property": "C30",
   "status": "partial",
   "theorems": [
    "PicScale.C30_violated",
    "PicScale.C30_flat_partial",
    "PicScale.C117_flat_u8"
   ],
   "note": "False of the code (witness); proved within one level when the quantised weights sum to 2^15 up to 64, which C117 establishes for averaging filters."
  },
  {
   "property": "C31",
   "status": "proved",
   "theorems": [
    "PicScale.C31_division",
    "PicScale.C31_no_overflow"
   ],
   "note": ""
  },
  {
   "property": "C32",
   "status": "partial",
   "theorems": [
    "PicScale.C32_violated",
    "PicScale.C32_premultiply_partial",
    "PicScale.C32_alpha_kept_iff"
   ],
   "note": "False of the scalar code: alpha is squared (witness; kept only for alpha 0 and 255). Proved: colours, padding, and the exact alpha."
  },
  {
   "property": "C33",
   "status": "partial",
   "theorems": [
    "PicScale.C33_violated",
    "PicScale.C33_unpremultiply_partial"
   ],
   "note": "Proved for premultiplied pixels (p <= a); out-of-range colours do not saturate (witness)."
  },
  {
   "property": "C34",
   "status": "partial",
   "theorems": [
    "PicScale.C34_violated",
    "PicScale.C34_round_trip_partial"
   ],
   "note": "Holds for the colour arithmetic with the original alpha; false for the pixels the code produces, because alpha is squared (witness)."
  },
  {
   "property": "C35",
   "status": "partial",
   "theorems": [
    "PicScale.C35_violated",
    "PicScale.C35_premultiply_partial",
    "PicScale.C35_unpremultiply_partial"
   ],
   "note": "False of the scalar code: both operations change alpha (witness; unpremultiplication makes every non-zero alpha max or max-1). Proved: colours within 1 + 1/64, padding."
  },
  {
   "property": "C36",
   "status": "proved",
   "theorems": [
    "PicScale.C36_float",
    "PicScale.C36_inverse"
   ],
   "note": "Scalar path."
  },
  {
   "property": "C37",
   "status": "proved",
   "theorems": [
    "PicScale.C37_alpha_check",
    "PicScale.C37_alpha_check_f32"
   ],
   "note": "Scalar path; RGBA8 below 2^24 pixels wide."
  },
  {
   "property": "C38",
   "status": "partial",
   "theorems": [
    "PicScale.C38_violated",
    "PicScale.C38_constant_alpha_partial"
   ],
   "note": "False of the code (witness: colour 100 becomes 199). Proved: exact relation of the two modes; they agree where the resized alpha is 255."
  },
  {
   "property": "C39",
   "status": "proved",
   "theorems": [
    "PicScale.C39_roundtrip"
   ],
   "note": "Both layouts, both orders, both machine endiannesses; translucent pixels become opaque, as the format code intends."
  },
  {
   "property": "C40",
   "status": "partial",
   "theorems": [
    "PicScale.C40_violated",
    "PicScale.C40_rows_partial",
    "PicScale.resize30_exact"
   ],
   "note": "False of the code (witness): in the last height % 4 rows windows other than 2, 3, 4, 6 pixels use size/4 taps. Proved for windows of 2, 3, 4, 6 pixels; resize30_exact gives the exact number of taps in every case."
  },
  {
   "property": "C41",
   "status": "partial",
   "theorems": [
    "PicScale.C41_vertical_stride_violated",
    "PicScale.C41_copy_violated",
    "PicScale.C41_nearest_unwritten",
    "PicScale.C41_nearest_panic_violated",
    "PicScale.C41_strides_partial"
   ],
   "note": "False of the code for vertical-only resizes and equal sizes with different strides, and for Nearest (witnesses; below four rows Nearest writes nothing, for every image). Proved for all other convolution resizes."
  },
  {
   "property": "C42",
   "status": "proved",
   "theorems": [
    "PicScale.C42_error_codes"
   ],
   "note": ""
  },
  {
   "property": "C43",
   "status": "proved",
   "theorems": [
    "PicScale.C43_filter_ids"
   ],
   "note": ""
  },
  {
   "property": "C44",
   "status": "partial",
   "theorems": [
    "PicScale.C44_violated",
    "PicScale.C44_packed_partial"
   ],
   "note": "False for padded images (witness); proved for packed ones."
  },
  {
   "property": "C45",
   "status": "proved",
   "theorems": [
    "PicScale.C45_horizontal",
    "PicScale.C45_vertical",
    "PicScale.C45_resize"
   ],
   "note": "For every float arithmetic in which adding a product to zero gives that product (so up to the sign of a zero in IEEE)."
  },
  {
   "property": "C46",
   "status": "proved",
   "theorems": [
    "PicScale.C46_alpha_pipeline"
   ],
   "note": "Colours not above the resized alpha (the others follow the overlapping table, see C33)."
  },
  {
   "property": "C47",
   "status": "partial",
   "theorems": [
    "PicScale.C47_opaque_u8_partial",
    "PicScale.C47_opaque_u16_partial",
    "PicScale.C47_violated"
   ],
   "note": "Proved for 8 bit and depths 1..=12; false for depths 13..=16 (witnesses)."
  },
  {
   "property": "C48",
   "status": "proved",
   "theorems": [
    "PicScale.C48_fixed",
    "PicScale.C48_float",
    "PicScale.C48_float_small"
   ],
   "note": "Scalar path; fixed point under the no-overflow condition of C24."
  },
  {
   "property": "C49",
   "status": "partial",
   "theorems": [
    "PicScale.C49_separable_partial",
    "PicScale.resize30_exact"
   ],
   "note": "Proved when the height is a multiple of four or the windows have 2, 3, 4 or 6 pixels, and (vertical-only) equal strides; false otherwise, see C40, C41."
  },
  {
   "property": "C50",
   "status": "proved",
   "theorems": [
    "PicScale.C50_errors"
   ],
   "note": ""
  },
  {
   "property": "C51",
   "status": "proved",
   "theorems": [
    "PicScale.C51_no_infinite_execution",
    "PicScale.C51_no_deadlock",
    "PicScale.C51_no_race",
    "PicScale.C51_writes_stay_in_chunk"
   ],
   "note": ""
  },
  {
   "property": "C52",
   "status": "proved",
   "theorems": [
    "PicScale.C52_no_oob"
   ],
   "note": "Calls whose handlers the CPU supports (C57); default crate features (sse, avx), no nightly_avx512."
  },
  {
   "property": "C53",
   "status": "partial",
   "theorems": [
    "PicScale.C53_quality_partial",
    "PicScale.C53_sse_white",
    "PicScale.C53_violated"
   ],
   "note": "False of the code: without AVX2 the SSE4.1 vertical handler turns columns of rows longer than 32 bytes white (missing shift); C53_sse_white proves exactly which. Proved otherwise, except RGB with AVX2 (C58) and CPUs without SSE4.1 (scalar vertical pass truncates)."
  },
  {
   "property": "C54",
   "status": "partial",
   "theorems": [
    "PicScale.C54_speed_partial",
    "PicScale.C54_error",
    "PicScale.C54_black",
    "PicScale.C54_violated"
   ],
   "note": "Formula and error bound proved where 16-bit accumulators cannot wrap; a flat picture of 200 becomes 201 (witness)."
  },
  {
   "property": "C55",
   "status": "partial",
   "theorems": [
    "PicScale.C55_channels_partial",
    "PicScale.C55_violated"
   ],
   "note": "False of the code: AVX2 RGBA PreferSpeed weighs alpha differently in windows of more than 8 taps (witness)."
  },
  {
   "property": "C56",
   "status": "partial",
   "theorems": [
    "PicScale.C56_cpu_partial",
    "PicScale.C56_violated"
   ],
   "note": "False of the code (witness: 3 against 4). Proved with PreferQuality among CPUs that round."
  },
  {
   "property": "C57",
   "status": "partial",
   "theorems": [
    "PicScale.C57_supported_iff",
    "PicScale.C57_violated"
   ],
   "note": "False of the code (witness); C57_supported_iff says exactly which calls use an instruction the CPU lacks."
  },
  {
   "property": "C58",
   "status": "partial",
   "theorems": [
    "PicScale.C58_locality_partial",
    "PicScale.C58_violated"
   ],
   "note": "False of the code for RGB with AVX2 (witness); proved for everything else."
  },
  {
   "property": "C59",
   "status": "proved",
   "theorems": [
    "PicScale.C59_aligned",
    "PicScale.C59_codes"
   ],
   "note": "For u8, u16 and f32 entry points; source and destination do not overlap."
  },
  {
   "property": "C60",
   "status": "partial",
   "theorems": [
    "PicScale.C60_source_partial",
    "PicScale.C60_violated"
   ],
   "note": "False of the code: unaligned sources are read with the wrong step unless the sample size equals the channel count; unaligned destinations are undefined behaviour or wrong (witnesses). C60_source_partial proves the source case that works."
  },
  {
   "property": "C61",
   "status": "proved",
   "theorems": [
    "PicScale.C61_premultiply",
    "PicScale.C61_extremes"
   ],
   "note": ""
  },
  {
   "property": "C62",
   "status": "partial",
   "theorems": [
    "PicScale.C62_unpremultiply_partial",
    "PicScale.C62_violated"
   ],
   "note": "False of the code with AVX2 for colours above 128 with alpha 1: they become 0 (witness, for every reciprocal within its specification); proved otherwise."
  },
  {
   "property": "C63",
   "status": "partial",
   "theorems": [
    "PicScale.C63_alpha_pipeline_partial",
    "PicScale.C63_violated"
   ],
   "note": "The exact composition is proved for every accepted call. False of the code for constant alpha (witness: 200 becomes 0 or 255), and with AVX2 the premultiplied copy has squared alpha."
  },
  {
   "property": "C64",
   "status": "partial",
   "theorems": [
    "PicScale.C64_alpha_check_partial",
    "PicScale.C64_violated"
   ],
   "note": "Proved for RGBA8 below 2^24 pixels wide and RGBA16 up to 32768 wide; false for RGBA16 images 131072 pixels wide (witness: 32-bit sums wrap)."
  },
  {
   "property": "C65",
   "status": "partial",
   "theorems": [
    "PicScale.C65_round_trip_partial",
    "PicScale.C65_violated"
   ],
   "note": "Proved for SSE4.1; false with AVX2, which squares alpha (witness)."
  },
  {
   "property": "C66",
   "status": "partial",
   "theorems": [
    "PicScale.C66_alpha_kept_partial",
    "PicScale.C66_violated"
   ],
   "note": "Proved for SSE4.1; false with AVX2 (witness). The scalar code squares alpha too (C32)."
  },
  {
   "property": "C67",
   "status": "proved",
   "theorems": [
    "PicScale.C67_premultiply"
   ],
   "note": ""
  },
  {
   "property": "C68",
   "status": "partial",
   "theorems": [
    "PicScale.C68_premultiply_partial",
    "PicScale.C68_violated"
   ],
   "note": "False of the code: every opaque colour above 32768 becomes 0 (signed 16-bit products). Proved for samples below 32768."
  },
  {
   "property": "C69",
   "status": "partial",
   "theorems": [
    "PicScale.C69_premultiply_partial",
    "PicScale.C69_extremes",
    "PicScale.C69_violated"
   ],
   "note": "False of the code with FMA: white becomes 2^d (half added before rounding to nearest). Proved without FMA."
  },
  {
   "property": "C70",
   "status": "proved",
   "theorems": [
    "PicScale.C70_alpha_kept"
   ],
   "note": ""
  },
  {
   "property": "C71",
   "status": "partial",
   "theorems": [
    "PicScale.C71_unpremultiply_partial",
    "PicScale.C71_violated"
   ],
   "note": "False of the code for SSE4.1 at 16 bits: every straight colour above 33000 becomes 32767 (signed pack). Proved otherwise."
  },
  {
   "property": "C72",
   "status": "partial",
   "theorems": [
    "PicScale.C72_fits_depth_partial",
    "PicScale.C72_violated"
   ],
   "note": "False of the code with FMA and with SSE4.1 (opaque white becomes 2^d). Proved for AVX2 without FMA up to 10 bits."
  },
  {
   "property": "C73",
   "status": "proved",
   "theorems": [
    "PicScale.C73_premultiply"
   ],
   "note": "Finite samples without overflow (infinities are not modelled)."
  },
  {
   "property": "C74",
   "status": "proved",
   "theorems": [
    "PicScale.C74_unpremultiply"
   ],
   "note": "Finite samples without overflow."
  },
  {
   "property": "C75",
   "status": "partial",
   "theorems": [
    "PicScale.C75_columns_partial",
    "PicScale.C75_violated"
   ],
   "note": "False of the code: the vector chunk divides, the scalar remainder multiplies by the reciprocal (witness: colour 5, alpha 3 in a row of 9). Proved within chunks and within the remainder."
  },
  {
   "property": "C76",
   "status": "proved",
   "theorems": [
    "PicScale.C76_u16_no_oob"
   ],
   "note": ""
  },
  {
   "property": "C77",
   "status": "partial",
   "theorems": [
    "PicScale.C77_vertical_reads",
    "PicScale.C77_vertical_columns_partial",
    "PicScale.C77_widths",
    "PicScale.C77_violated"
   ],
   "note": "False of the code: the column counter is not advanced past the last full group, so tails show columns of that group (witness). C77_vertical_reads says which column for every width; C77_widths that the listed widths are exactly the good ones."
  },
  {
   "property": "C78",
   "status": "proved",
   "theorems": [
    "PicScale.C78_horizontal_exact"
   ],
   "note": "In-range samples, accumulators below 2^30."
  },
  {
   "property": "C79",
   "status": "proved",
   "theorems": [
    "PicScale.C79_range_lb"
   ],
   "note": "Accumulators below 2^30."
  },
  {
   "property": "C80",
   "status": "proved",
   "theorems": [
    "PicScale.C80_range_deep"
   ],
   "note": ""
  },
  {
   "property": "C81",
   "status": "partial",
   "theorems": [
    "PicScale.C81_rows_alike_partial",
    "PicScale.C81_violated"
   ],
   "note": "False of the code: the SSE4.1 single-row RGBA handler uses other taps than the code for groups of four rows (witness). Proved otherwise."
  },
  {
   "property": "C82",
   "status": "partial",
   "theorems": [
    "PicScale.C82_cpu_partial",
    "PicScale.C82_violated"
   ],
   "note": "False of the code: the portable code truncates, the vector code rounds (witness). Proved: same among vector CPUs, at most one apart otherwise."
  },
  {
   "property": "C83",
   "status": "proved",
   "theorems": [
    "PicScale.C83_flat_rows_lb"
   ],
   "note": ""
  },
  {
   "property": "C84",
   "status": "partial",
   "theorems": [
    "PicScale.C84_channels_partial",
    "PicScale.C84_violated"
   ],
   "note": "False of the code: see C77; blue is taken from red (witness)."
  },
  {
   "property": "C85",
   "status": "partial",
   "theorems": [
    "PicScale.C79_range_lb",
    "PicScale.C85_violated"
   ],
   "note": "False of the code: a 10-bit destination receives 32768 (witness). Proved for in-range samples (C79)."
  },
  {
   "property": "C86",
   "status": "partial",
   "theorems": [
    "PicScale.C86_flat_rows_partial",
    "PicScale.C86_violated"
   ],
   "note": "False of the code for rows whose number of samples is not a multiple of four with SSE4.1 (witness). Proved otherwise."
  },
  {
   "property": "C87",
   "status": "proved",
   "theorems": [
    "PicScale.C87_f32_no_oob"
   ],
   "note": ""
  },
  {
   "property": "C88",
   "status": "proved",
   "theorems": [
    "PicScale.C88_f32_vertical",
    "PicScale.C88_f32_vertical_cpus"
   ],
   "note": "Finite samples (no signed zero in the model)."
  },
  {
   "property": "C89",
   "status": "proved",
   "theorems": [
    "PicScale.C89_f32_two_three",
    "PicScale.C89_f32_two_three_fma"
   ],
   "note": "Finite samples (no signed zero in the model)."
  },
  {
   "property": "C90",
   "status": "proved",
   "theorems": [
    "PicScale.C90_f32_accuracy_vertical",
    "PicScale.C90_f32_accuracy_horizontal",
    "PicScale.C90_f32_accuracy_both",
    "PicScale.C90_f32_cpus_close",
    "PicScale.C90_bound_size"
   ],
   "note": "Exact sums use the table's weights; unbounded exponent (no overflow to infinity) as in the F32 model."
  },
  {
   "property": "C91",
   "status": "partial",
   "theorems": [
    "PicScale.C91_f32_accuracy_plane_partial",
    "PicScale.C91_f32_accuracy_plane_both_partial",
    "PicScale.C91_violated"
   ],
   "note": "False of the code: in the rows after the last group of four, windows of more than 16 taps add some taps twice (17 x 5 plane of ones: last row 1.498). Proved for rows in groups of four and for windows of up to 16 taps."
  },
  {
   "property": "C92",
   "status": "proved",
   "theorems": [
    "PicScale.C92_equal_rows"
   ],
   "note": ""
  },
  {
   "property": "C93",
   "status": "partial",
   "theorems": [
    "PicScale.C93_equal_rows_partial",
    "PicScale.C93_violated_four",
    "PicScale.C91_violated"
   ],
   "note": "False of the code: single rows use another summation (one channel, more than 16 taps) or no FMA (four channels, AVX2). Proved for rows of the same kind and for one channel with windows of up to 16 taps."
  },
  {
   "property": "C94",
   "status": "proved",
   "theorems": [
    "PicScale.C94_f32_locality"
   ],
   "note": ""
  },
  {
   "property": "C95",
   "status": "partial",
   "theorems": [
    "PicScale.C95_f32_cpus_partial",
    "PicScale.C95_violated"
   ],
   "note": "False of the code: the order of addition depends on the CPU. Proved when no horizontal window has more than two taps; C90 bounds the difference otherwise."
  },
  {
   "property": "C96",
   "status": "proved",
   "theorems": [
    "PicScale.C96_alpha_pipeline_f32"
   ],
   "note": "Finite samples."
  },
  {
   "property": "C97",
   "status": "proved",
   "theorems": [
    "PicScale.C97_alpha_same"
   ],
   "note": "Finite samples."
  },
  {
   "property": "C98",
   "status": "partial",
   "theorems": [
    "PicScale.C98_constant_alpha_partial",
    "PicScale.C98_violated"
   ],
   "note": "False of the code: constant-alpha pictures are not premultiplied but divided (witness: 8 becomes 16). Proved: the exact relation."
  },
  {
   "property": "C99",
   "status": "proved",
   "theorems": [
    "PicScale.C99_rgb",
    "PicScale.C99_rgba"
   ],
   "note": "Conversions of colorutils_rs are arbitrary per-pixel functions; rows fit u32."
  },
  {
   "property": "C100",
   "status": "proved",
   "theorems": [
    "PicScale.C100_transfer_function",
    "PicScale.C100_linear_approx"
   ],
   "note": "Approximate linear RGBA without premultiplication."
  },
  {
   "property": "C101",
   "status": "partial",
   "theorems": [
    "PicScale.C101_linear_rgba_partial",
    "PicScale.C101_violated"
   ],
   "note": "False of the code: sRGB is hard-wired in LinearScaler::resize_rgba (witness). Proved: what it computes."
  },
  {
   "property": "C102",
   "status": "partial",
   "theorems": [
    "PicScale.C102_padding_partial",
    "PicScale.C102_padding_rgba_partial",
    "PicScale.C102_violated"
   ],
   "note": "False of the code (witness: flat 10 becomes 48/22 and the destination padding is overwritten). Proved: what it computes, for all strides."
  },
  {
   "property": "C103",
   "status": "proved",
   "theorems": [
    "PicScale.C103_same_size"
   ],
   "note": ""
  },
  {
   "property": "C104",
   "status": "proved",
   "theorems": [
    "PicScale.C104_errors"
   ],
   "note": "Images whose channel field is right and whose rows fit u32."
  },
  {
   "property": "C105",
   "status": "partial",
   "theorems": [
    "PicScale.C105_cbcr_partial",
    "PicScale.C105_violated"
   ],
   "note": "False of the code: all nine colour scalers panic. Proved for the ordinary scaler."
  },
  {
   "property": "C106",
   "status": "proved",
   "theorems": [
    "PicScale.C106_locality"
   ],
   "note": "Pictures without row padding; all scalers but LinearApproxScaler (whose inner 8-bit resize is C58)."
  },
  {
   "property": "C107",
   "status": "partial",
   "theorems": [
    "PicScale.C107_alpha_locality_partial",
    "PicScale.C107_violated"
   ],
   "note": "False of the code (witness: the alpha of a far pixel turns 8 into 16). Proved when both pictures have varying or both constant alpha."
  },
  {
   "property": "C108",
   "status": "proved",
   "theorems": [
    "PicScale.C108_no_oob"
   ],
   "note": "Every processor, no assumption about pixels, sums or filter; a purely vertical call needs equal strides (C41)."
  },
  {
   "property": "C109",
   "status": "proved",
   "theorems": [
    "PicScale.C109_vertical"
   ],
   "note": "Under Safe30 (accumulators below 2^30, met by every window of at most 31 taps)."
  },
  {
   "property": "C110",
   "status": "partial",
   "theorems": [
    "PicScale.C110_separable_partial",
    "PicScale.C110_violated"
   ],
   "note": "False of the code for windows of more than four pixels (witness: 295 instead of 344). Proved for windows of at most four pixels and heights divisible by four."
  },
  {
   "property": "C111",
   "status": "partial",
   "theorems": [
    "PicScale.C111_last_rows",
    "PicScale.C111_green_lost",
    "PicScale.C111_violated"
   ],
   "note": "False of the code: the last height % 4 rows always lose green and half of red and blue. What they contain is proved."
  },
  {
   "property": "C112",
   "status": "proved",
   "theorems": [
    "PicScale.C112_flat_rows"
   ],
   "note": ""
  },
  {
   "property": "C113",
   "status": "proved",
   "theorems": [
    "PicScale.C113_errors"
   ],
   "note": ""
  },
  {
   "property": "C114",
   "status": "proved",
   "theorems": [
    "PicScale.C114_locality"
   ],
   "note": "Under Safe30."
  },
  {
   "property": "C115",
   "status": "proved",
   "theorems": [
    "PicScale.C115_no_overflow",
    "PicScale.C115_resize_u8",
    "PicScale.C115_low_precision",
    "PicScale.weights_bounded",
    "PicScale.AcceptedCall.u8",
    "PicScale.AcceptedCall.u8X86",
    "PicScale.AcceptedCall16.lb",
    "PicScale.Call30.safe"
   ],
   "note": "Discharges the no-overflow hypothesis of the integer resize theorems (portable, x86, 10/12-bit, packed) for averaging filters."
  },
  {
   "property": "C116",
   "status": "proved",
   "theorems": [
    "PicScale.C116_normalised",
    "PicScale.averaging_of"
   ],
   "note": ""
  },
  {
   "property": "C117",
   "status": "proved",
   "theorems": [
    "PicScale.C117_flat_u8",
    "PicScale.near64",
    "PicScale.quantised_near"
   ],
   "note": ""
  },
  {
   "property": "C118",
   "status": "partial",
   "theorems": [
    "PicScale.C118_black",
    "PicScale.C118_doubled",
    "PicScale.box_row_value"
   ],
   "note": "False of the code: with Box, 65537 or more pixels to one gives black whatever the picture, 65536 pixels to one doubles the brightness. C117 is the part that holds."
  },
  {
   "property": "C119",
   "status": "proved",
   "theorems": [
    "PicScale.C119_f16_no_oob"
   ],
   "note": "Portable and x86 code; any arithmetic and conversions."
  },
  {
   "property": "C120",
   "status": "proved",
   "theorems": [
    "PicScale.C120_f16_padding"
   ],
   "note": ""
  },
  {
   "property": "C121",
   "status": "partial",
   "theorems": [
    "PicScale.C121_f16_padding_partial",
    "PicScale.C121_violated"
   ],
   "note": "False of the code: the portable horizontal handlers (one and two channels on every processor) overwrite all row padding with zeros. Proved what they write; C120 is the part that holds."
  },
  {
   "property": "C122",
   "status": "proved",
   "theorems": [
    "PicScale.C122_f16_value",
    "PicScale.C122_f16_cpus"
   ],
   "note": "binary32 without overflow to infinity."
  },
  {
   "property": "C123",
   "status": "proved",
   "theorems": [
    "PicScale.C123_f16_locality"
   ],
   "note": ""
  },
  {
   "property": "C124",
   "status": "proved",
   "theorems": [
    "PicScale.C124_f16_accuracy_height",
    "PicScale.C124_f16_accuracy_width",
    "PicScale.C124_f16_accuracy_both"
   ],
   "note": ""
  },
  {
   "property": "C125",
   "status": "proved",
   "theorems": [
    "PicScale.C125_widen_fallback",
    "PicScale.C125_widen_finite"
   ],
   "note": ""
  },
  {
   "property": "C126",
   "status": "proved",
   "theorems": [
    "PicScale.C126_narrow_fallback",
    "PicScale.C126_round_trip",
    "PicScale.C126_narrow_ieee"
   ],
   "note": ""
  },
  {
   "property": "C127",
   "status": "partial",
   "theorems": [
    "PicScale.C127_narrow_ieee_partial",
    "PicScale.C127_sign_dropped",
    "PicScale.C127_overflow_nan",
    "PicScale.C127_infinity_widened",
    "PicScale.C127_never_negative",
    "PicScale.C127_violated"
   ],
   "note": "False of the code with SSE4.1 and no F16C: signs are dropped, overflow and infinity become NaN, infinity is read as 65536. Proved for the IEEE conversions."
  },
  {
   "property": "C128",
   "status": "proved",
   "theorems": [
    "PicScale.C128_premultiply_f16"
   ],
   "note": "Minus zero as alpha outside full blocks is excepted (the model does not follow the sign of zero)."
  },
  {
   "property": "C129",
   "status": "partial",
   "theorems": [
    "PicScale.C129_premultiply_sse_partial",
    "PicScale.C129_violated"
   ],
   "note": "False of the code: negative products in full blocks lose their sign. Proved for products from 0 to 65520 and for the pixels after the last full block."
  },
  {
   "property": "C130",
   "status": "partial",
   "theorems": [
    "PicScale.C130_unpremultiply_f16_partial",
    "PicScale.C130_blocks_multiply",
    "PicScale.C130_violated"
   ],
   "note": "False of the code: full blocks are multiplied by alpha instead (witness: 1/2 at alpha 1/2 becomes 1/4). Proved for the pixels after the last full block; what blocks contain is proved."
  },
  {
   "property": "C131",
   "status": "proved",
   "theorems": [
    "PicScale.C131_unpremultiply_f16_frame"
   ],
   "note": ""
  },
  {
   "property": "C132",
   "status": "proved",
   "theorems": [
    "PicScale.C132_alpha_pipeline_f16",
    "PicScale.premultiplied_f16"
   ],
   "note": ""
  },
  {
   "property": "C133",
   "status": "proved",
   "theorems": [
    "PicScale.C133_alpha_same_f16"
   ],
   "note": "No alpha of the source is a minus zero."
  },
  {
   "property": "C134",
   "status": "partial",
   "theorems": [
    "PicScale.C134_colours_f16_partial",
    "PicScale.C134_violated"
   ],
   "note": "False of the code (witness: -2 at alpha 1/2 comes back as -1/2 in a row of 17). Proved for the pixels after the last full block and for pixels of alpha 0."
  },
  {
   "property": "C135",
   "status": "proved",
   "theorems": [
    "PicScale.C135_alpha_pipeline_u16"
   ],
   "note": "All depths, all vector CPUs."
  },
  {
   "property": "C136",
   "status": "proved",
   "theorems": [
    "PicScale.C136_alpha_same_u16"
   ],
   "note": ""
  },
  {
   "property": "C137",
   "status": "partial",
   "theorems": [
    "PicScale.C137_colours_u16_partial",
    "PicScale.C137_violated"
   ],
   "note": "False of the code: an image of constant alpha is divided without having been multiplied, and colours above alpha leave the depth (witness). Proved for pixels whose resized colour does not exceed the resized alpha."
  },
  {
   "property": "C138",
   "status": "proved",
   "theorems": [
    "PicScale.C138_neon_no_oob"
   ],
   "note": ""
  },
  {
   "property": "C139",
   "status": "proved",
   "theorems": [
    "PicScale.C139_neon_values"
   ],
   "note": "Accumulators below 2^30 (for example windows of at most 128 taps, accumFits_of_taps)."
  },
  {
   "property": "C140",
   "status": "partial",
   "theorems": [
    "PicScale.C140_columns_partial",
    "PicScale.C140_violated"
   ],
   "note": "False of the code: with rows of 8 to 15 bytes after blocks of 16 and three-tap windows, bytes 4 to 7 of the remainder use the second weight for the third row (witness: two identical columns become 73 and 109). Proved otherwise."
  },
  {
   "property": "C141",
   "status": "partial",
   "theorems": [
    "PicScale.C141_plane_black",
    "PicScale.C141_violated"
   ],
   "note": "False of the code: the sums of the 4-tap and 1-tap steps are dropped; proved that every picture turns black when no window has more than 8 taps."
  },
  {
   "property": "C142",
   "status": "proved",
   "theorems": [
    "PicScale.C142_rdm_values"
   ],
   "note": "The no-overflow condition is the one of C54."
  },
  {
   "property": "C143",
   "status": "partial",
   "theorems": [
    "PicScale.C143_columns_partial",
    "PicScale.C143_violated"
   ],
   "note": "False of the code: with rows of 16 to 31 bytes after blocks of 32 and four-tap windows the fourth row uses the third weight (witness: 58 instead of 12). Proved otherwise."
  },
  {
   "property": "C144",
   "status": "proved",
   "theorems": [
    "PicScale.C144_strategy_irrelevant"
   ],
   "note": ""
  },
  {
   "property": "C145",
   "status": "proved",
   "theorems": [
    "PicScale.C145_portable_agreement"
   ],
   "note": ""
  },
  {
   "property": "C146",
   "status": "proved",
   "theorems": [
    "PicScale.C146_neon_locality"
   ],
   "note": ""
  },
  {
   "property": "C147",
   "status": "proved",
   "theorems": [
    "PicScale.C147_premultiply_neon",
    "PicScale.C147_portable"
   ],
   "note": ""
  },
  {
   "property": "C148",
   "status": "partial",
   "theorems": [
    "PicScale.C148_alpha_kept_partial",
    "PicScale.C148_violated"
   ],
   "note": "Proved for the first width / 16 * 16 columns; false in the others, where alpha is squared (witness: a row of 17 equal pixels; there alpha survives iff it is 0 or 255)."
  },
  {
   "property": "C149",
   "status": "proved",
   "theorems": [
    "PicScale.C149_unpremultiply_neon"
   ],
   "note": ""
  },
  {
   "property": "C150",
   "status": "partial",
   "theorems": [
    "PicScale.C150_portable_partial",
    "PicScale.C150_violated",
    "PicScale.C150_violated_white"
   ],
   "note": "Proved to within one level; false as an equality (witnesses: colour 133 with alpha 143; white with alpha 39 becomes 254)."
  },
  {
   "property": "C151",
   "status": "partial",
   "theorems": [
    "PicScale.C151_alpha_check_partial",
    "PicScale.C151_violated"
   ],
   "note": "Proved up to 2^23 pixels per row; false for rows of 2^25 pixels (32-bit sums wrap, witness)."
  },
  {
   "property": "C152",
   "status": "partial",
   "theorems": [
    "PicScale.C152_alpha_check_partial",
    "PicScale.C152_violated"
   ],
   "note": "Proved up to 32768 pixels per row; false for rows of 131072 pixels (32-bit sums wrap, witness)."
  },
  {
   "property": "C153",
   "status": "proved",
   "theorems": [
    "PicScale.C153_alpha_pipeline_neon"
   ],
   "note": ""
  },
  {
   "property": "C154",
   "status": "partial",
   "theorems": [
    "PicScale.C154_round_trip_partial",
    "PicScale.C154_violated"
   ],
   "note": "Proved for the first width / 16 * 16 columns; false in the others (witness: colour 100, alpha 100 returns as colour 254, alpha 39)."
  },
  {
   "property": "C155",
   "status": "proved",
   "theorems": [
    "PicScale.C155_premultiply_neon"
   ],
   "note": ""
  },
  {
   "property": "C156",
   "status": "proved",
   "theorems": [
    "PicScale.C156_premultiply_neon"
   ],
   "note": ""
  },
  {
   "property": "C157",
   "status": "partial",
   "theorems": [
    "PicScale.C157_premultiply_neon_partial",
    "PicScale.C157_violated"
   ],
   "note": "Proved: 51/100 plus 1/430 (1/220) of the value; false as stated (witness: white 1023 becomes 1022, 4095 becomes 4088)."
  },
  {
   "property": "C158",
   "status": "proved",
   "theorems": [
    "PicScale.C158_unpremultiply_neon"
   ],
   "note": ""
  },
  {
   "property": "C159",
   "status": "partial",
   "theorems": [
    "PicScale.C159_violated"
   ],
   "note": "False (witnesses: 16 bits, 65535 with alpha 65534 gives 0; 10 bits, 1023 with alpha 512 gives 2044). The true part, colours not above alpha, is C158."
  },
  {
   "property": "C160",
   "status": "partial",
   "theorems": [
    "PicScale.C160_unpremultiply_neon_partial",
    "PicScale.C160_violated"
   ],
   "note": "Proved: the value at both depths, the range at 10 bits; the range fails at 12 bits (witness: white 4095 becomes 4096)."
  },
  {
   "property": "C161",
   "status": "proved",
   "theorems": [
    "PicScale.C161_alpha_kept_neon"
   ],
   "note": ""
  },
  {
   "property": "C162",
   "status": "proved",
   "theorems": [
    "PicScale.C162_premultiply_neon"
   ],
   "note": ""
  },
  {
   "property": "C163",
   "status": "proved",
   "theorems": [
    "PicScale.C163_unpremultiply_neon"
   ],
   "note": ""
  },
  {
   "property": "C164",
   "status": "proved",
   "theorems": [
    "PicScale.C164_neon_as_sse"
   ],
   "note": ""
  },
  {
   "property": "C165",
   "status": "partial",
   "theorems": [
    "PicScale.C165_columns_neon_partial",
    "PicScale.C165_violated"
   ],
   "note": "Proved for two columns both in or both outside full blocks of four; false between block and remainder (witness: five equal pixels)."
  },
  {
   "property": "C166",
   "status": "proved",
   "theorems": [
    "PicScale.C166_f32_neon_no_oob"
   ],
   "note": ""
  },
  {
   "property": "C167",
   "status": "partial",
   "theorems": [
    "PicScale.C167_f32_neon_no_oob_partial",
    "PicScale.C167_violated"
   ],
   "note": "Proved when no row leaves 5-7 samples modulo 8, or the rows are padded to a multiple of 8; false otherwise (witnesses: unpadded 5 x 2 plane to 5 x 1, reads three samples past the end; also 2 and 3 channels)."
  },
  {
   "property": "C168",
   "status": "proved",
   "theorems": [
    "PicScale.C168_f32_neon_portable",
    "PicScale.C168_f32_neon_rgba"
   ],
   "note": ""
  },
  {
   "property": "C169",
   "status": "proved",
   "theorems": [
    "PicScale.C169_f32_neon_x86"
   ],
   "note": ""
  },
  {
   "property": "C170",
   "status": "proved",
   "theorems": [
    "PicScale.C170_f32_neon_accuracy_vertical",
    "PicScale.C170_f32_neon_accuracy_horizontal",
    "PicScale.C170_f32_neon_accuracy_both"
   ],
   "note": ""
  },
  {
   "property": "C171",
   "status": "partial",
   "theorems": [
    "PicScale.C171_f32_neon_plane_partial",
    "PicScale.C171_violated"
   ],
   "note": "Proved for rows in groups of four and for windows of at most 16 taps; false for the last height % 4 rows with larger windows (witness: 17 x 5 plane of ones to 1 x 5)."
  },
  {
   "property": "C172",
   "status": "proved",
   "theorems": [
    "PicScale.C172_f32_neon_equal_rows"
   ],
   "note": ""
  },
  {
   "property": "C173",
   "status": "partial",
   "theorems": [
    "PicScale.C173_f32_neon_equal_rows_partial",
    "PicScale.C171_violated"
   ],
   "note": "Proved for two rows both inside or both outside the groups of four; false between them (C171_violated)."
  },
  {
   "property": "C174",
   "status": "proved",
   "theorems": [
    "PicScale.C174_f32_neon_locality"
   ],
   "note": ""
  },
  {
   "property": "C175",
   "status": "proved",
   "theorems": [
    "PicScale.C175_alpha_pipeline_neon"
   ],
   "note": ""
  },
  {
   "property": "C176",
   "status": "proved",
   "theorems": [
    "PicScale.C176_alpha_same_neon"
   ],
   "note": ""
  },
  {
   "property": "C177",
   "status": "partial",
   "theorems": [
    "PicScale.C177_constant_alpha_neon_partial",
    "PicScale.C177_violated"
   ],
   "note": "Exact result proved; the property is false: constant alpha skips the premultiplication but not the division (flat picture of colour 8, alpha 1/2 gets colour 16)."
  },
  {
   "property": "C178",
   "status": "proved",
   "theorems": [
    "PicScale.C178_u16_neon_no_oob"
   ],
   "note": ""
  },
  {
   "property": "C179",
   "status": "proved",
   "theorems": [
    "PicScale.C179_u16_neon_range"
   ],
   "note": ""
  },
  {
   "property": "C180",
   "status": "proved",
   "theorems": [
    "PicScale.C180_u16_neon_horizontal"
   ],
   "note": ""
  },
  {
   "property": "C181",
   "status": "partial",
   "theorems": [
    "PicScale.C181_u16_neon_portable_partial",
    "PicScale.C181_violated"
   ],
   "note": "Equal but for exact halves of RGBA images, which are one less (witness)."
  },
  {
   "property": "C182",
   "status": "partial",
   "theorems": [
    "PicScale.C182_u16_neon_vertical",
    "PicScale.C182_u16_neon_columns_partial",
    "PicScale.C182_violated"
   ],
   "note": "Columns read are given exactly for every width; own column only for row lengths of a multiple of 16, at most 4, or 8; false otherwise (witness)."
  },
  {
   "property": "C183",
   "status": "partial",
   "theorems": [
    "PicScale.C183_u16_neon_channels_partial",
    "PicScale.C183_violated"
   ],
   "note": "Proved for those row lengths; false otherwise (blue from red)."
  },
  {
   "property": "C184",
   "status": "proved",
   "theorems": [
    "PicScale.C184_u16_neon_flat_rows",
    "PicScale.C184_u16_neon_flat_rows_float"
   ],
   "note": ""
  },
  {
   "property": "C185",
   "status": "proved",
   "theorems": [
    "PicScale.C185_u16_neon_portable_deep"
   ],
   "note": ""
  },
  {
   "property": "C186",
   "status": "proved",
   "theorems": [
    "PicScale.C186_u16_neon_deep_accuracy"
   ],
   "note": ""
  },
  {
   "property": "C187",
   "status": "proved",
   "theorems": [
    "PicScale.C187_u16_neon_half_accuracy"
   ],
   "note": ""
  },
  {
   "property": "C188",
   "status": "partial",
   "theorems": [
    "PicScale.C188_u16_neon_half_same_partial",
    "PicScale.C188_violated"
   ],
   "note": "Proved above 12 bits and when the height is kept; false otherwise: a flat 12-bit picture of 2049 becomes 2048 in half precision."
  },
  {
   "property": "C189",
   "status": "partial",
   "theorems": [
    "PicScale.C189_u16_neon_vertical_portable_partial",
    "PicScale.C189_violated"
   ],
   "note": "NEON rounds, the portable code truncates: equal or one more (witness)."
  },
  {
   "property": "C190",
   "status": "proved",
   "theorems": [
    "PicScale.C190_alpha_pipeline_neon16"
   ],
   "note": ""
  },
  {
   "property": "C191",
   "status": "proved",
   "theorems": [
    "PicScale.C191_alpha_same_neon16"
   ],
   "note": ""
  },
  {
   "property": "C192",
   "status": "partial",
   "theorems": [
    "PicScale.C192_colours_neon16_partial",
    "PicScale.C192_violated"
   ],
   "note": "Proved where the resized colour does not exceed the resized alpha; otherwise it leaves the depth, and pictures of constant alpha are divided without having been multiplied (witness)."
  },
  {
   "property": "C193",
   "status": "proved",
   "theorems": [
    "PicScale.C193_no_oob"
   ],
   "note": ""
  },
  {
   "property": "C194",
   "status": "proved",
   "theorems": [
    "PicScale.C194_errors"
   ],
   "note": ""
  },
  {
   "property": "C195",
   "status": "proved",
   "theorems": [
    "PicScale.C195_vertical"
   ],
   "note": ""
  },
  {
   "property": "C196",
   "status": "partial",
   "theorems": [
    "PicScale.C196_separable_partial",
    "PicScale.C196_violated"
   ],
   "note": "Proved for windows of up to four pixels; in longer windows the code pairs weights with permuted pixels (witness: 378 instead of 344)."
  },
  {
   "property": "C197",
   "status": "proved",
   "theorems": [
    "PicScale.C197_flat_rows"
   ],
   "note": ""
  },
  {
   "property": "C198",
   "status": "proved",
   "theorems": [
    "PicScale.C198_locality"
   ],
   "note": ""
  },
  {
   "property": "C199",
   "status": "proved",
   "theorems": [
    "PicScale.C199_columns"
   ],
   "note": ""
  },
  {
   "property": "C200",
   "status": "partial",
   "theorems": [
    "PicScale.C200_white_partial",
    "PicScale.C200_violated"
   ],
   "note": "Proved for weight sums of at least one whose scaled sums fit 16 bits; Catmull-Rom saturates (witness: white becomes 983 in the first 8 columns)."
  },
  {
   "property": "C201",
   "status": "partial",
   "theorems": [
    "PicScale.C201_rows_partial",
    "PicScale.C201_violated"
   ],
   "note": "Proved for windows of up to eight pixels in rows handled four at a time; longer windows are permuted (witness: 99 instead of 111)."
  },
  {
   "property": "C202",
   "status": "proved",
   "theorems": [
    "PicScale.C202_equal_rows"
   ],
   "note": ""
  },
  {
   "property": "C203",
   "status": "partial",
   "theorems": [
    "PicScale.C203_equal_rows_partial",
    "PicScale.C203_violated"
   ],
   "note": "Proved for rows both in, or both outside, the blocks of four; a leftover row is resized by other arithmetic (witness: 378 against 344)."
  },
  {
   "property": "C204",
   "status": "proved",
   "theorems": [
    "PicScale.C204_threads_x86_u8",
    "PicScale.C204_threads_x86_u16",
    "PicScale.C204_threads_x86_f32",
    "PicScale.C204_threads_x86_ar30"
   ],
   "note": ""
  },
  {
   "property": "C205",
   "status": "proved",
   "theorems": [
    "PicScale.C205_threads_neon_u8",
    "PicScale.C205_threads_neon_u16",
    "PicScale.C205_threads_neon_f32",
    "PicScale.C205_threads_neon_ar30"
   ],
   "note": ""
  },
  {
   "property": "C206",
   "status": "proved",
   "theorems": [
    "PicScale.C206_threads_alpha_x86_u8",
    "PicScale.C206_threads_alpha_x86_u16",
    "PicScale.C206_threads_alpha_x86_f32"
   ],
   "note": ""
  },
  {
   "property": "C207",
   "status": "proved",
   "theorems": [
    "PicScale.C207_threads_alpha_neon_u8",
    "PicScale.C207_threads_alpha_neon_u16",
    "PicScale.C207_threads_alpha_neon_f32"
   ],
   "note": ""
  },
  {
   "property": "C208",
   "status": "partial",
   "theorems": [
    "PicScale.C208_single_needs_no_threads_partial",
    "PicScale.C208_violated"
   ],
   "note": "Fails for RGBA16 with alpha where SSE4.1 is the best instruction set: the sequential arm of the unpremultiplication says par_chunks_exact_mut and runs on rayon's global pool. Proved elsewhere."
  },
  {
   "property": "C209",
   "status": "proved",
   "theorems": [
    "PicScale.C209_ar30_copy_nearest_x86",
    "PicScale.C209_ar30_copy_nearest_neon",
    "PicScale.C209_nearest_unwritten"
   ],
   "note": ""
  },
  {
   "property": "C210",
   "status": "proved",
   "theorems": [
    "PicScale.C210_x86_monotone"
   ],
   "note": ""
  },
  {
   "property": "C211",
   "status": "proved",
   "theorems": [
    "PicScale.C211_neon_monotone"
   ],
   "note": ""
  },
  {
   "property": "C212",
   "status": "proved",
   "theorems": [
    "PicScale.C212_range_portable"
   ],
   "note": "The loss of one in a vertical pass is real: the portable vertical pass truncates."
  },
  {
   "property": "C213",
   "status": "proved",
   "theorems": [
    "PicScale.C213_range_x86_quality",
    "PicScale.C213_range_x86_speed"
   ],
   "note": "The CPUs, widths and channel counts of C53 and C54."
  },
  {
   "property": "C214",
   "status": "proved",
   "theorems": [
    "PicScale.C214_range_neon",
    "PicScale.C214_range_rdm"
   ],
   "note": "The channel counts and windows of C139 and C142."
  },
  {
   "property": "C215",
   "status": "proved",
   "theorems": [
    "PicScale.C215_accuracy_portable"
   ],
   "note": ""
  },
  {
   "property": "C216",
   "status": "proved",
   "theorems": [
    "PicScale.C216_accuracy_x86_quality",
    "PicScale.C216_accuracy_x86_speed",
    "PicScale.C216_small"
   ],
   "note": "The CPUs, widths and channel counts of C53 and C54."
  },
  {
   "property": "C217",
   "status": "proved",
   "theorems": [
    "PicScale.C217_accuracy_neon",
    "PicScale.C217_accuracy_rdm"
   ],
   "note": "The channel counts and windows of C139 and C142."
  },
  {
   "property": "C218",
   "status": "proved",
   "theorems": [
    "PicScale.C218_speed_quality"
   ],
   "note": "The channel counts of C53 and C54."
  },
  {
   "property": "C219",
   "status": "proved",
   "theorems": [
    "PicScale.C219_x86_portable"
   ],
   "note": "Not RGB with a change of width (other handlers)."
  },
  {
   "property": "C220",
   "status": "proved",
   "theorems": [
    "PicScale.C220_x86_neon"
   ],
   "note": ""
  },
  {
   "property": "C221",
   "status": "proved",
   "theorems": [
    "PicScale.C221_same_as_avx2"
   ],
   "note": ""
  },
  {
   "property": "C222",
   "status": "proved",
   "theorems": [
    "PicScale.C222_no_oob"
   ],
   "note": ""
  },
  {
   "property": "C223",
   "status": "proved",
   "theorems": [
    "PicScale.C223_vnni_values"
   ],
   "note": ""
  },
  {
   "property": "C224",
   "status": "partial",
   "theorems": [
    "PicScale.C224_equal_rows_partial",
    "PicScale.C224_violated"
   ],
   "note": "False in general: a white opaque 3x5 image gets samples 254, alpha included, in its last row. Proved when both rows are in the same class or windows exceed four taps."
  },
  {
   "property": "C225",
   "status": "proved",
   "theorems": [
    "PicScale.C225_vnni_vs_avx2"
   ],
   "note": ""
  },
  {
   "property": "C226",
   "status": "proved",
   "theorems": [
    "PicScale.C226_premultiply"
   ],
   "note": ""
  },
  {
   "property": "C227",
   "status": "partial",
   "theorems": [
    "PicScale.C227_unpremultiply",
    "PicScale.C227_values_partial"
   ],
   "note": "Same exception as C62: colour above 128 with alpha 1 becomes 0."
  },
  {
   "property": "C228",
   "status": "partial",
   "theorems": [
    "PicScale.C228_check",
    "PicScale.C228_check_partial",
    "PicScale.C228_violated"
   ],
   "note": "False unless the width is a multiple of 16: the columns after the last block of 16 are ignored, so an image narrower than 16 pixels always counts as constant. C228_check says exactly what is answered."
  },
  {
   "property": "C229",
   "status": "partial",
   "theorems": [
    "PicScale.C229_alpha_pipeline_partial",
    "PicScale.C229_violated_narrow",
    "PicScale.C229_violated"
   ],
   "note": "False when alpha varies only in the last width mod 16 columns: the image is not premultiplied but is divided by alpha (grey 100 becomes 199)."
  },
  {
   "property": "C230",
   "status": "proved",
   "theorems": [
    "PicScale.C230_u16_no_oob",
    "PicScale.C230_same"
   ],
   "note": ""
  },
  {
   "property": "C231",
   "status": "proved",
   "theorems": [
    "PicScale.C231_values"
   ],
   "note": "When no accumulator reaches 2^30 (AcceptedLb)."
  },
  {
   "property": "C232",
   "status": "proved",
   "theorems": [
    "PicScale.C232_range"
   ],
   "note": "When no accumulator reaches 2^30 (AcceptedLb)."
  },
  {
   "property": "C233",
   "status": "proved",
   "theorems": [
    "PicScale.C233_neon_f16_no_oob"
   ],
   "note": "Any arithmetic and conversions."
  },
  {
   "property": "C234",
   "status": "partial",
   "theorems": [
    "PicScale.C234_neon_f16_padding_partial",
    "PicScale.C234_neon_f16_padding_zeroed",
    "PicScale.C234_violated"
   ],
   "note": "Fails for one and two channels (and four without f16c) if the width changes: padding is zeroed."
  },
  {
   "property": "C235",
   "status": "proved",
   "theorems": [
    "PicScale.C235_neon_f16_value"
   ],
   "note": "Binary32 arithmetic; also any width-keeping resize of any channel count."
  },
  {
   "property": "C236",
   "status": "partial",
   "theorems": [
    "PicScale.C236_neon_rgba_value_partial",
    "PicScale.C236_violated"
   ],
   "note": "The fourth tap of every step of four multiplies the second pixel (all three variants, both workloads); right for windows of up to four pixels."
  },
  {
   "property": "C237",
   "status": "partial",
   "theorems": [
    "PicScale.C237_neon_rgb_fast_partial",
    "PicScale.C237_violated"
   ],
   "note": "Loads of rgb_f16_full.rs do not advance: blue takes red, weights 2 and 3 of a step meet the wrong samples."
  },
  {
   "property": "C238",
   "status": "proved",
   "theorems": [
    "PicScale.C238_neon_f16_locality"
   ],
   "note": "Except fast RGB, which depends on all channels of the window (see C237)."
  },
  {
   "property": "C239",
   "status": "partial",
   "theorems": [
    "PicScale.C239_neon_f16_rows_partial",
    "PicScale.C239_violated"
   ],
   "note": "RGBA rows of a group of four and single rows differ for windows of more than eight pixels (C236)."
  },
  {
   "property": "C240",
   "status": "proved",
   "theorems": [
    "PicScale.C240_neon_f16_accuracy",
    "PicScale.F16.weightUsed_near"
   ],
   "note": "For samples without a misplaced tap (TapsRight), if no sum can reach 65520; weights as used by the path."
  },
  {
   "property": "C241",
   "status": "proved",
   "theorems": [
    "PicScale.C241_premultiply_neon_f16"
   ],
   "note": "Finite samples; infinities on overflow; without fp16 a minus zero alpha in the remainder may become plus zero."
  },
  {
   "property": "C242",
   "status": "proved",
   "theorems": [
    "PicScale.C242_unpremultiply_neon_f16_frame"
   ],
   "note": ""
  },
  {
   "property": "C243",
   "status": "partial",
   "theorems": [
    "PicScale.C243_unpremultiply_neon_f16_partial",
    "PicScale.C243_violated"
   ],
   "note": "With half arithmetic pixels of alpha 0 keep their colour; dividing by a minus zero (possible without half arithmetic) is outside the model."
  },
  {
   "property": "C244",
   "status": "proved",
   "theorems": [
    "PicScale.C244_premultiply_everywhere_f16"
   ],
   "note": "No alpha a minus zero."
  },
  {
   "property": "C245",
   "status": "proved",
   "theorems": [
    "PicScale.C245_alpha_pipeline_neon_f16"
   ],
   "note": ""
  },
  {
   "property": "C246",
   "status": "proved",
   "theorems": [
    "PicScale.C246_alpha_same_neon_f16"
   ],
   "note": "Without half arithmetic: no alpha a minus zero."
  },
  {
   "property": "C247",
   "status": "partial",
   "theorems": [
    "PicScale.C247_colours_neon_f16_partial",
    "PicScale.C247_violated"
   ],
   "note": "With half arithmetic pixels whose resized alpha is 0 keep the premultiplied colour."
  },
  {
   "property": "C248",
   "status": "proved",
   "theorems": [
    "PicScale.C248_shift_columns",
    "PicScale.C248_shift_rows"
   ],
   "note": "8-bit, portable code."
  },
  {
   "property": "C249",
   "status": "partial",
   "theorems": [
    "PicScale.C249_extent_partial",
    "PicScale.C249_complete_partial",
    "PicScale.C249_bilinear_violated",
    "PicScale.C249_cubic_violated"
   ],
   "note": "Holds at whole-number reductions up to half the kernel size (every filter), hence completely for Bilinear and Hermite; fails for enlargements (a tap is dropped right of each pixel centre) and for the cubic filters (half their support is never read)."
  },
  {
   "property": "C250",
   "status": "partial",
   "theorems": [
    "PicScale.C250_linear_partial",
    "PicScale.C250_violated"
   ],
   "note": "Enlargements of the width by powers of two: linear in left halves of pixels and at the edges; elsewhere the source pixel itself."
  },
  {
   "property": "C251",
   "status": "partial",
   "theorems": [
    "PicScale.C251_columns_partial",
    "PicScale.C251_rows_partial",
    "PicScale.C251_violated"
   ],
   "note": "False: the mean of 2 n pixels around the block is computed (proved, with error bound)."
  },
  {
   "property": "C252",
   "status": "partial",
   "theorems": [
    "PicScale.C252_columns_partial",
    "PicScale.C252_rows_partial",
    "PicScale.C252_bilinear_violated"
   ],
   "note": "Exact for even reductions with Box and Area; false for enlargements with Bilinear. Other filters at reductions: not treated."
  },
  {
   "property": "C253",
   "status": "proved",
   "theorems": [
    "PicScale.C253_c_f16_x86",
    "PicScale.C253_c_f16_neon"
   ],
   "note": "Sequential handlers; source and destination do not overlap; up to 2^23 pixels per source dimension."
  },
  {
   "property": "C254",
   "status": "partial",
   "theorems": [
    "PicScale.C254_c_u8_x86_partial",
    "PicScale.C254_c_u8_neon_partial",
    "PicScale.C254_c_u16_x86",
    "PicScale.C254_c_u16_neon"
   ],
   "note": "16-bit: with any flags. 8-bit: RGBA without premultiplication, on x86 where the CPU has the instructions of the kernels picked."
  },
  {
   "property": "C255",
   "status": "partial",
   "theorems": [
    "PicScale.C255_flat_partial",
    "PicScale.C255_linear_partial",
    "PicScale.C255_higher_partial",
    "PicScale.C255_bartlett_violated",
    "PicScale.C255_hermite_violated",
    "PicScale.C255_truncated_violated"
   ],
   "note": "Exact arithmetic. False of Bartlett; degree 1 false of Hermite; false of ten filters with the radius the library uses for enlargements (half of min_kernel_size). Kernels with libm functions are not covered."
  },
  {
   "property": "C256",
   "status": "partial",
   "theorems": [
    "PicScale.C256_interpolates_partial",
    "PicScale.C256_same_kernels",
    "PicScale.C256_violated"
   ],
   "note": "Exact arithmetic. False of Bartlett and of the Lanczos*Jinc kernels (jinc(0) = 0, so a pixel has no weight at its own position)."
  },
  {
   "property": "C257",
   "status": "partial",
   "theorems": [
    "PicScale.C257_nearer_partial",
    "PicScale.C257_bartlett_violated",
    "PicScale.C257_window_violated",
    "PicScale.C257_jinc_violated"
   ],
   "note": "Bilinear, Quadric, Welch, Kaiser (with LibmBounds), Box and (reductions) Area; 8-bit, width only, sizes in a dyadic ratio, nearer pixel inside the window. False across the window edge (the window omits its right end), of Bartlett and of Lanczos*Jinc."
  },
  {
   "property": "C258",
   "status": "proved",
   "theorems": [
    "PicScale.C258_middle"
   ],
   "note": "Any odd ratios within 2^22 pixels, both directions at once, on the binary32 tables and the fixed point passes. The darkening is the truncation of the vertical pass."
  },
  {
   "property": "C259",
   "status": "proved",
   "theorems": [
    "PicScale.C259_no_bleed_u8",
    "PicScale.C259_no_bleed_x86",
    "PicScale.C259_no_bleed_neon",
    "PicScale.C259_no_bleed_u16",
    "PicScale.C259_no_bleed_u16X86",
    "PicScale.C259_no_bleed_u16Neon"
   ],
   "note": "The passes of the format are arbitrary, so this holds of every pass the model has. Without a visible pixel the alpha check finds nothing to do and colours are resized as they are; alpha of the result is then 0."
  },
  {
   "property": "C260",
   "status": "proved",
   "theorems": [
    "PicScale.C260_no_bleed_f32",
    "PicScale.C260_no_bleed_f32Neon",
    "PicScale.C260_no_bleed_f16",
    "PicScale.C260_no_bleed_f16Neon"
   ],
   "note": "f32 samples are rationals (no infinities or NaN); f16 samples are bit patterns of finite values, alpha 0 is +0 or -0."
  },
  {
   "property": "C261",
   "status": "partial",
   "theorems": [
    "PicScale.C261_no_bleed_partial",
    "PicScale.C261_violated"
   ],
   "note": "Widths that are multiples of 16. False of narrow pictures: the AVX-512 alpha check reports constant alpha, so nothing is premultiplied, but the result is divided by alpha all the same."
  },
  {
   "property": "C262",
   "status": "proved",
   "theorems": [
    "PicScale.C262_kaiser"
   ],
   "note": "binary32; with it Kaiser (and Hamming, Hanning, Gaussian) joins the averaging filters of C16, C29, C115, C210, C211 and, Kaiser only, C257."
  },
  {
   "property": "C263",
   "status": "proved",
   "theorems": [
    "PicScale.C263_weights",
    "PicScale.C263_no_overflow",
    "PicScale.C263_resize_u8"
   ],
   "note": "the Robidoux filters assume that the constant sqrt2 of the library is the binary32 number nearest to it. Lanczos and Jinc filters in reductions are not covered (their kernels are arbitrary functions here)."
  },
  {
   "property": "C264",
   "status": "partial",
   "theorems": [
    "PicScale.C264_family",
    "PicScale.C264_robidoux_sharp",
    "PicScale.C264_violated"
   ],
   "note": "proved for Cubic, BSpline, Hermite, MitchellNetravalli, CatmullRom, Bicubic, RobidouxSharp; false for Robidoux: bc_spline.rs has 13 / (58 + 216 sqrt2) where the published filter has 113 / (58 + 216 sqrt2)."
  },
  {
   "property": "C265",
   "status": "proved",
   "theorems": [
    "PicScale.C265_normalised"
   ],
   "note": "the Robidoux filters assume that sqrt2 of the library is the binary32 number nearest to it"
  },
  {
   "property": "C266",
   "status": "partial",
   "theorems": [
    "PicScale.C266_flat_partial",
    "PicScale.C266_violated"
   ],
   "note": "Proved when each dimension is kept or reduced to half or less (windows of at most 124 pixels). False of the code otherwise: doubling a flat grey of 200 with Catmull-Rom gives columns of 182, because normalised weights above one do not fit the 16-bit weights; Bicubic and MitchellNetravalli likewise, and even 8 -> 7 pixels gives 183."
  },
  {
   "property": "C267",
   "status": "partial",
   "theorems": [
    "PicScale.C267_flat_f32",
    "PicScale.C267_flat_f32_neon"
   ],
   "note": "Planes on CPUs with SSE4.1 and on AArch64: only for windows of at most 16 pixels or heights divisible by four (false otherwise, C91_violated, C171_violated). Robidoux assumes that sqrt2 of the library is correctly rounded."
  },
  {
   "property": "C268",
   "status": "proved",
   "theorems": [
    "PicScale.C268_f32_monotone",
    "PicScale.C268_f32_monotone_neon"
   ],
   "note": "AArch64: sizes for which the vertical handlers stay in bounds (NeonSafe, C167)."
  },
  {
   "property": "C269",
   "status": "proved",
   "theorems": [
    "PicScale.C269_f32_negated",
    "PicScale.C269_f32_negated_neon"
   ],
   "note": "Signed zeros are not modelled. AArch64: NeonSafe (C167)."
  },
  {
   "property": "C270",
   "status": "partial",
   "theorems": [
    "PicScale.C270_f32_range",
    "PicScale.C270_f32_range_neon",
    "PicScale.C270_f32_nonneg"
   ],
   "note": "The upper and lower ends for planes only as in C267 (false otherwise); C270_f32_nonneg without restriction."
  },
  {
   "property": "C271",
   "status": "proved",
   "theorems": [
    "PicScale.C271_u16_monotone",
    "PicScale.C271_u16_monotone_neon",
    "PicScale.C271_u16_monotone_512"
   ],
   "note": ""
  },
  {
   "property": "C272",
   "status": "proved",
   "theorems": [
    "PicScale.C272_deep_monotone",
    "PicScale.C272_deep_monotone_neon"
   ],
   "note": ""
  },
  {
   "property": "C273",
   "status": "proved",
   "theorems": [
    "PicScale.C273_window_reach",
    "PicScale.C273_window_size",
    "PicScale.C273_reach_u8",
    "PicScale.C273_reach_x86",
    "PicScale.C273_reach_neon",
    "PicScale.C273_reach_f32",
    "PicScale.C273_reach_f32_neon"
   ],
   "note": "x86: not RGB with AVX2 when the width changes, where it is false (C58_violated)."
  },
  {
   "property": "C274",
   "status": "proved",
   "theorems": [
    "PicScale.C274_range_u16",
    "PicScale.C274_range_u16_neon",
    "PicScale.C274_range_u16_512",
    "PicScale.C274_levels"
   ],
   "note": ""
  },
  {
   "property": "C275",
   "status": "proved",
   "theorems": [
    "PicScale.C275_negative_u8",
    "PicScale.C275_negative_x86",
    "PicScale.C275_negative_neon",
    "PicScale.C275_negative_u16",
    "PicScale.C275_negative_u16_neon",
    "PicScale.C275_negative_u16_avx512",
    "PicScale.negErr_levels"
   ],
   "note": "x86, 8 bits: the CPUs and formats of C53; AArch64, 8 bits: those of C139."
  }
 ]
}
