{"id": "C01", "title": "Image constructors accept exactly the buffers that fit", "statement": "ImageStore::{new,borrow,from_slice} and ImageStoreMut::{new,borrow,from_slice} return Ok iff the slice length equals width*height*N; on success the image reports exactly the given width, height and elements, with rows packed (stride = width*N); otherwise they return BufferMismatch carrying the expected length, the given dimensions, N and the actual length.", "quantifier": "every element type, slice, width, height and channel count", "why_tests_cant": "Tests pick a handful of sizes; the claim is an iff over all lengths and dimensions.", "anchors": ["src/image_store.rs: ImageStore::new, borrow, from_slice; ImageStoreMut::new, borrow, from_slice"]}
{"id": "C02", "title": "A stored image with stride 0 means a packed image", "statement": "The documentation of the public field `stride` says: if stride is zero then it is considered to be width*N. An image whose stride field is 0 and whose buffer holds width*height*N elements should be treated like the same image with stride width*N by every resize call.", "quantifier": "every image with stride field 0, every destination", "why_tests_cant": "A universally quantified equivalence between two encodings of the same image.", "anchors": ["src/image_store.rs: ImageStore::stride, ImageStore::validate, ImageStoreMut::validate", "src/scaler.rs: Scaler::generic_resize"]}
{"id": "C03", "title": "Resize returns the documented error, and only then", "statement": "resize_* returns Ok iff: destination and source buffers have exactly stride*height elements with stride >= width*N, all four dimensions are non-zero, neither image has width*height*channels beyond usize, and (for u16 images only) the destination bit depth is in 1..=16. When it fails the error is the first of: destination layout, source layout, ZeroImageDimensions, SourceImageIsTooLarge, DestinationImageIsTooLarge, UnsupportedBitDepth.", "quantifier": "every pair of images, every filter, every threading policy", "why_tests_cant": "Precedence among simultaneous faults and completeness of the Ok condition range over all combinations of inputs.", "anchors": ["src/scaler.rs: Scaler::generic_resize, Scaler::generic_resize_with_alpha", "src/image_store.rs: validate", "src/support.rs: check_image_size_overflow"]}
{"id": "C04", "title": "A failed resize leaves the destination untouched", "statement": "Whenever resize_* returns Err, the destination buffer, dimensions, stride and bit depth are exactly what they were before the call.", "quantifier": "every pair of images for which an error is returned", "why_tests_cant": "Absence of a side effect on every error path.", "anchors": ["src/scaler.rs: Scaler::generic_resize, generic_resize_with_alpha"]}
{"id": "C05", "title": "The image size check detects exactly the sizes that do not fit usize", "statement": "The too-large check rejects (width, height, channels) iff the mathematical product width*height*channels is not representable in usize, for every word size.", "quantifier": "all width, height, channels below the word modulus, all moduli", "why_tests_cant": "Overflow predicates have to be right at all of about 2^192 points.", "anchors": ["src/support.rs: check_image_size_overflow"]}
{"id": "C06", "title": "Passing the size checks makes every internal buffer size representable", "statement": "If resize accepts the source and destination sizes, then the size of the intermediate (source width x destination height) image it allocates is also representable in usize.", "quantifier": "every accepted pair of image sizes", "why_tests_cant": "Tests cannot allocate such images; it is a statement about all size pairs.", "anchors": ["src/scaler.rs: Scaler::generic_resize (target_vertical), forward_resize_with_alpha"]}
{"id": "C07", "title": "Resizing to the same size copies the picture", "statement": "If source and destination have equal width and height, a successful resize makes every destination sample equal to the source sample at the same (y, x, channel), for every filter including Nearest and for every pair of row strides.", "quantifier": "every image, filter, pair of strides, every pixel and channel", "why_tests_cant": "All strides and sizes; the row-by-row copy uses zipped iterators whose truncation is easy to get wrong.", "anchors": ["src/scaler.rs: generic_resize same-size branch", "src/image_store.rs: ImageStore::copied_to_mut"]}
{"id": "C08", "title": "Row padding of the destination is never written", "statement": "For a destination whose stride exceeds width*N, a resize call leaves every buffer element that does not belong to a pixel unchanged.", "quantifier": "every source, destination with padding, filter, threading policy", "why_tests_cant": "Frame condition over every element of every buffer.", "anchors": ["src/dispatch_group_u8.rs", "src/dispatch_group_u16.rs", "src/dispatch_group_f32.rs", "src/image_store.rs: copied_to_mut", "src/nearest_sampler.rs"]}
{"id": "C09", "title": "Nearest never reads outside the source", "statement": "For every source and destination size accepted by resize, Nearest computes source coordinates inside the source image (so the call neither panics nor reads unrelated memory).", "quantifier": "all source/destination sizes and all destination coordinates; binary32 rounding of every intermediate", "why_tests_cant": "Index arithmetic is done in binary32; the extreme sizes cannot be tested.", "anchors": ["src/nearest_sampler.rs: resize_nearest"]}
{"id": "C10", "title": "Nearest outputs are source pixels, whole", "statement": "With Nearest, each destination pixel is an exact copy (all channels) of one source pixel, the source row index depends only on the destination row and the source column only on the destination column, and both are monotone in the destination coordinate.", "quantifier": "every packed image, every size pair up to 2^24, every pixel", "why_tests_cant": "All images and sizes.", "anchors": ["src/nearest_sampler.rs: resize_nearest"]}
{"id": "C11", "title": "Nearest honours row strides", "statement": "With Nearest, destination pixel (x,y) is written at y*dst_stride + x*N and taken from a source pixel addressed with the source stride, like every other filter does.", "quantifier": "every pair of images with arbitrary strides", "why_tests_cant": "Requires all stride combinations.", "anchors": ["src/nearest_sampler.rs: resize_nearest", "src/scaler.rs: generic_resize Nearest branch"]}
{"id": "C12", "title": "Nearest picks the source pixel under the destination pixel centre", "statement": "With Nearest, destination column x takes the source column that contains the point (x+1/2)*src_width/dst_width (ties to either side), and likewise for rows.", "quantifier": "all sizes and coordinates", "why_tests_cant": "All sizes and coordinates.", "anchors": ["src/nearest_sampler.rs: resize_nearest"]}
{"id": "C13", "title": "Filter windows stay inside the source", "statement": "For every filter and every in/out size pair with in <= 2^23 the window used for each output coordinate is a non-empty interval of source coordinates inside the image and no longer than the kernel, although it is computed in binary32.", "quantifier": "all sizes, output coordinates, filters, binary32 round-to-nearest-even", "why_tests_cant": "The window is computed with rounded floating point; the property has to hold for every size.", "anchors": ["src/scaler.rs: Scaler::generate_weights"]}
{"id": "C14", "title": "Unused kernel slots carry zero weight", "statement": "Kernel slots beyond the window of an output coordinate are zero, and the number of weights is exactly kernel_size * out_size.", "quantifier": "all sizes, filters, output coordinates", "why_tests_cant": "SIMD kernels rely on this padding for all sizes.", "anchors": ["src/scaler.rs: Scaler::generate_weights"]}
{"id": "C15", "title": "Weights of each output coordinate sum to one", "statement": "For every filter, the weights used for one output coordinate are normalised: they sum to 1 (up to binary32 rounding of the normalisation itself).", "quantifier": "all sizes, filters and coordinates", "why_tests_cant": "All sizes, including those in which the raw weights cancel.", "anchors": ["src/scaler.rs: Scaler::generate_weights"]}
{"id": "C16", "title": "Averaging filters have non-negative weights", "statement": "For the filters whose kernel is non-negative (Bilinear, Box, Area, BSpline, Hermite, Cubic, Quadric, Welch) every weight produced is non-negative.", "quantifier": "all sizes, output coordinates and non-negative kernels", "why_tests_cant": "All sizes.", "anchors": ["src/scaler.rs: generate_weights", "src/math/*.rs"]}
{"id": "C17", "title": "Quantised weights are the nearest representable weights", "statement": "For the 8-bit and <=12-bit paths each weight is replaced by the integer nearest to weight*2^15, saturated to i16; the error is at most half a unit when |weight| < 1 and windows are unchanged.", "quantifier": "every weight table", "why_tests_cant": "All weights.", "anchors": ["src/filter_weights.rs: FilterWeights::numerical_approximation"]}
{"id": "C18", "title": "The horizontal pass computes the weighted sum of the window, per pixel and channel", "statement": "For 8-bit (and <=12-bit u16) images of 1..4 channels, the horizontal pass writes at each (y,x,c) the rounded, clamped value of sum_k q(x,k)*src(y,start(x)+k,c) / 2^15, for every window size (including the specially coded sizes 2,3,4,6), every height (rows are processed in groups of four and a remainder) and every pair of strides.", "quantifier": "every image, size, stride pair, weight table, pixel, channel", "why_tests_cant": "Unrolled special cases, batching and remainders multiply the cases; tests sample few of them.", "anchors": ["src/fixed_point_horizontal.rs", "src/dispatch_group_u8.rs: convolve_horizontal_dispatch_u8", "src/dispatch_group_u16.rs"]}
{"id": "C19", "title": "The vertical pass computes the weighted sum of the window, per sample", "statement": "For 8-bit (and <=12-bit u16) images the vertical pass writes at each (y,x,c) the value floor(sum_k q(y,k)*src(start(y)+k,x,c) / 2^15) clamped to the sample range, for every row width (the code splits rows into blocks of 64, 32, 16, 8 and 1 samples) and every pair of strides.", "quantifier": "every image, width, stride pair, weight table, pixel, channel", "why_tests_cant": "Block decompositions and tails for every width.", "anchors": ["src/fixed_point_vertical.rs", "src/dispatch_group_u8.rs: convolve_vertical_dispatch_u8"]}
{"id": "C20", "title": "Both passes round the same way", "statement": "The vertical pass rounds to nearest like the horizontal pass does (the fixed point sum is rounded, not truncated).", "quantifier": "every weighted sum", "why_tests_cant": "A statement about all sums.", "anchors": ["src/fixed_point_vertical.rs", "src/fixed_point_horizontal.rs"]}
{"id": "C21", "title": "A full resize is the separable convolution of the source", "statement": "resize_* with a convolution filter succeeds and produces, at every pixel, the horizontal weighted sum of the (already rounded and clamped) vertical weighted sums of the source; when only one dimension changes only that pass is applied.", "quantifier": "every image pair with valid layouts and sizes up to 2^23, every convolution filter", "why_tests_cant": "End-to-end functional correctness over all inputs.", "anchors": ["src/scaler.rs: Scaler::generic_resize", "src/dispatch_group_u8.rs"]}
{"id": "C22", "title": "Convolution never reads or writes outside the images", "statement": "For accepted images (dimensions up to 2^23) no slice access of the convolution passes is out of bounds, so the call does not panic.", "quantifier": "every accepted image pair and filter", "why_tests_cant": "Panic freedom over all inputs.", "anchors": ["src/fixed_point_horizontal.rs", "src/fixed_point_vertical.rs", "src/floating_point_horizontal.rs", "src/floating_point_vertical.rs", "src/dispatch_group_*.rs"]}
{"id": "C23", "title": "Output samples stay within the bit depth", "statement": "Every sample written by a convolution pass into a u8 image is in 0..=255 and into a u16 image of depth d is in 0..=2^d-1, whatever the source samples and filter overshoot.", "quantifier": "every source content (including out-of-range u16 samples), filter, depth 1..=16", "why_tests_cant": "All contents.", "anchors": ["src/saturate_narrow.rs", "src/mixed_storage.rs", "src/fixed_point_*.rs", "src/floating_point_*.rs"]}
{"id": "C24", "title": "Accumulators do not overflow", "statement": "With i32 accumulators no partial sum overflows for 8-bit samples as long as the quantised weights of a window have absolute sum at most 2^23, and for 12-bit samples at most 2^19 (16 times the unit weight).", "quantifier": "every window content and weight list meeting the bound", "why_tests_cant": "Worst-case bound over all contents.", "anchors": ["src/fixed_point_horizontal.rs", "src/fixed_point_vertical.rs"]}
{"id": "C25", "title": "Channels do not mix", "statement": "In a convolution resize, each output channel depends only on the same channel of the source: resizing an interleaved image equals resizing each channel plane separately.", "quantifier": "every image, filter, size, channel", "why_tests_cant": "Non-interference over all images.", "anchors": ["src/fixed_point_horizontal.rs", "src/fixed_point_vertical.rs", "src/color_group.rs"]}
{"id": "C26", "title": "An output pixel depends only on its source window", "statement": "Two sources that agree on the rows and columns of the window of output pixel (x,y) give the same output pixel (x,y).", "quantifier": "every pair of sources, every pixel", "why_tests_cant": "Locality over all pairs of images (hyperproperty).", "anchors": ["src/fixed_point_horizontal.rs", "src/fixed_point_vertical.rs"]}
{"id": "C27", "title": "Threading does not change the result", "statement": "For every threading policy and every schedule of the parallel row tasks, the destination after resize is the same as with ThreadingPolicy::Single.", "quantifier": "every interleaving of the row tasks", "why_tests_cant": "Schedules cannot be enumerated by tests.", "anchors": ["src/dispatch_group_u8.rs", "src/dispatch_group_u16.rs", "src/nearest_sampler.rs", "src/threading_policy.rs"]}
{"id": "C28", "title": "Thread counts are sane", "statement": "ThreadingPolicy::thread_count is at least 1, Single gives 1, Fixed(n) gives max(n,1), Adaptive never exceeds the available parallelism and grows with the image area.", "quantifier": "all policies, sizes, machine parallelism", "why_tests_cant": "All sizes.", "anchors": ["src/threading_policy.rs: ThreadingPolicy::thread_count, get_pool"]}
{"id": "C29", "title": "Monotonicity of averaging resizes", "statement": "With a filter whose quantised weights are non-negative, making source samples larger never makes any output sample smaller, and output samples lie between the extremes allowed by the source minimum and maximum.", "quantifier": "every pair of pointwise ordered sources", "why_tests_cant": "Hyperproperty over pairs of images.", "anchors": ["src/fixed_point_horizontal.rs", "src/fixed_point_vertical.rs"]}
{"id": "C30", "title": "Flat images stay flat", "statement": "Resizing an image in which all samples have value v gives samples all equal to v (8-bit, any convolution filter).", "quantifier": "every v, filter, size", "why_tests_cant": "All sizes and filters.", "anchors": ["src/scaler.rs: generate_weights", "src/filter_weights.rs", "src/fixed_point_vertical.rs"]}
{"id": "C31", "title": "Division by the channel maximum rounds to nearest", "statement": "The integer tricks used to divide products by 255, 1023, 4095 and 65535 return the exactly rounded quotient for every product of two samples of that depth.", "quantifier": "all products of two in-range samples", "why_tests_cant": "65536 to 2^32 points each.", "anchors": ["src/alpha_handle_u8.rs: div_by_255", "src/alpha_handle_u16.rs: div_by_1023, div_by_4095, div_by_65535"]}
{"id": "C32", "title": "Premultiplying 8-bit pixels scales colours and keeps alpha", "statement": "Premultiplication of an RGBA8 image replaces each colour c of a pixel with alpha a by round(c*a/255) and leaves alpha unchanged, for every pixel, stride and size.", "quantifier": "every RGBA8 image", "why_tests_cant": "All images.", "anchors": ["src/alpha_handle_u8.rs: premultiply_alpha_rgba_row_impl, premultiply_alpha_rgba_impl"]}
{"id": "C33", "title": "Unpremultiplying 8-bit pixels inverts premultiplication", "statement": "For a premultiplied pixel (colour p <= alpha a) unpremultiplication yields round(255*p/a) (0 when a = 0), alpha unchanged; out-of-range colours saturate.", "quantifier": "every colour/alpha pair, every image", "why_tests_cant": "A 65536-entry table built at compile time with overlapping indices.", "anchors": ["src/alpha_handle_u8.rs: UNPREMULTIPLICATION_TABLE, unpremultiply_alpha_rgba_row_impl"]}
{"id": "C34", "title": "Premultiply/unpremultiply round trip is accurate", "statement": "Premultiplying then unpremultiplying a colour c with alpha a > 0 returns a colour within 128/a + 1 of c, and exactly c when a = 255.", "quantifier": "all colours and alphas", "why_tests_cant": "All 65280 pairs and the general bound.", "anchors": ["src/alpha_handle_u8.rs"]}
{"id": "C35", "title": "16-bit premultiply/unpremultiply keep alpha", "statement": "For RGBA16 images of depth 1..=16, premultiplication scales colours by a/max and unpremultiplication divides by it; both leave alpha unchanged.", "quantifier": "every RGBA16 image and depth", "why_tests_cant": "All images.", "anchors": ["src/alpha_handle_u16.rs"]}
{"id": "C36", "title": "Float premultiplication is invertible", "statement": "For RGBA f32 images premultiplication multiplies colours by alpha and keeps alpha; unpremultiplication divides by alpha (0 if alpha is 0) and keeps alpha; in exact arithmetic they are inverse where alpha is non-zero.", "quantifier": "every RGBA f32 image", "why_tests_cant": "All images.", "anchors": ["src/alpha_handle_f32.rs"]}
{"id": "C37", "title": "The alpha check detects exactly varying alpha", "statement": "The alpha check reports that premultiplication is needed iff two pixels of the image have different alpha (padding is ignored).", "quantifier": "every RGBA8/RGBA16/RGBA f32 image", "why_tests_cant": "All images; accumulations in fixed width integers.", "anchors": ["src/alpha_check.rs", "src/image_store.rs: is_alpha_premultiplication_needed"]}
{"id": "C38", "title": "premultiply_alpha=true on a constant-alpha image behaves like premultiply_alpha=false", "statement": "If all source pixels share the same alpha then resize_rgba(.., true) and resize_rgba(.., false) give the same colours.", "quantifier": "every RGBA8 image with constant alpha", "why_tests_cant": "Hyperproperty over both modes for all images.", "anchors": ["src/scaler.rs: forward_resize_with_alpha, forward_resize_vertical_with_alpha, forward_resize_horizontal_with_alpha"]}
{"id": "C39", "title": "AR30 packing round-trips", "statement": "For both AR30 layouts (AR30, RA30) and both byte orders, unpacking a packed pixel returns the 10-bit components; packing an unpacked opaque pixel returns the same 32 bits.", "quantifier": "all 10-bit triples and all 32-bit words", "why_tests_cant": "2^30 pixels x layouts x orders.", "anchors": ["src/ar30.rs: Rgb30::pack_w_a, unpack"]}
{"id": "C40", "title": "AR30 rows are filtered the same whether processed alone or in groups of four", "statement": "The horizontal AR30 pass gives each row the same result whether it is processed in a group of four rows or in the single-row remainder.", "quantifier": "every row, weight table", "why_tests_cant": "All window sizes.", "anchors": ["src/fixed_point_horizontal_ar30.rs", "src/dispatch_group_ar30.rs"]}
{"id": "C41", "title": "AR30 resize honours strides and filters", "statement": "resize_ar30 writes destination rows at the destination stride for every combination of changed dimensions, and with Nearest each output pixel is a source pixel.", "quantifier": "every pair of strides and sizes", "why_tests_cant": "All strides and sizes.", "anchors": ["src/resize_ar30.rs: resize_ar30_impl"]}
{"id": "C42", "title": "Error codes identify errors", "statement": "PicScaleError::code is non-zero and different errors of different kinds have different codes.", "quantifier": "all error values", "why_tests_cant": "Exhaustive over kinds and payloads.", "anchors": ["src/pic_scale_error.rs: PicScaleError::code"]}
{"id": "C43", "title": "Numeric filter ids are total and cover every filter", "statement": "ResamplingFunction::from(u32) is defined for every u32, ids 0..=48 name 49 pairwise different filters covering every variant, and any other id means Bilinear.", "quantifier": "all u32", "why_tests_cant": "2^32 ids.", "anchors": ["src/sampler.rs: From<u32> for ResamplingFunction"]}
{"id": "C44", "title": "Copies of an image are images of the same picture", "statement": "ImageStore::copied, ImageStoreMut::copied and to_immutable return an image with the same samples at every (y,x,channel) for every stride.", "quantifier": "every image and stride", "why_tests_cant": "All strides.", "anchors": ["src/image_store.rs: copied, to_immutable"]}
{"id": "C45", "title": "Every high-depth float pass equals the rounded weighted sum in a fixed order", "statement": "For f32 images and u16 images deeper than 12 bits each pass writes the fused/unfused left-to-right weighted sum of the window (u16: rounded up, clamped), identically for every window size, row batching, block decomposition and stride.", "quantifier": "every image, size, stride pair, weight table, any multiply-add primitive", "why_tests_cant": "Floating point addition is not associative, so each unrolled variant must keep the order for all inputs.", "anchors": ["src/floating_point_horizontal.rs", "src/floating_point_vertical.rs", "src/dispatch_group_f32.rs", "src/mixed_storage.rs"]}
{"id": "C46", "title": "Resizing with premultiplication is premultiply, resize, unpremultiply", "statement": "For an accepted RGBA8 resize with premultiply_alpha = true whose source has at least two different alphas, every output pixel is: the four channels of the premultiplied picture resized independently, then each colour divided by the resized alpha (0 if that is 0); the output alpha is the resized alpha of the premultiplied picture; padding is untouched.", "quantifier": "every accepted RGBA8 resize, every filter, stride and size", "why_tests_cant": "Composition of four loops over all images.", "anchors": ["src/scaler.rs: forward_resize_with_alpha and variants", "src/image_store.rs: AssociateAlpha, UnassociateAlpha"]}
{"id": "C47", "title": "Opaque pixels survive alpha handling", "statement": "Premultiplying or unpremultiplying a pixel whose alpha is the maximum of its depth leaves the pixel unchanged, for 8-bit pixels and for every depth 1..=16 of 16-bit pixels.", "quantifier": "every opaque pixel and depth", "why_tests_cant": "The 16-bit code goes through binary32 reciprocals; 2^48 pixels per depth.", "anchors": ["src/alpha_handle_u8.rs", "src/alpha_handle_u16.rs"]}
{"id": "C48", "title": "One pass stays close to the exact weighted sum", "statement": "For tables produced by the crate, an output sample of one pass differs from the exact (rational) weighted sum of the window clamped to the sample range by at most a stated bound: fixed point horizontal 1/2 + n*max/2^15, vertical between -(1 + n*max/2^15) and n*max/2^15; 16-bit float passes between -E and 1 + E with an explicit E that is below 1 for windows up to 60 taps.", "quantifier": "every accepted pass, image, table, stride and window size", "why_tests_cant": "Needs an error bound over all pictures and all weights.", "anchors": ["src/fixed_point_horizontal.rs", "src/fixed_point_vertical.rs", "src/floating_point_horizontal.rs", "src/floating_point_vertical.rs", "src/filter_weights.rs: numerical_approximation"]}
{"id": "C49", "title": "resize_ar30 is a separable resize of three 10-bit channels", "statement": "For packed 10-bit images (both layouts, both byte orders) an accepted convolution resize writes, for every destination pixel, each of the three components as the horizontal weighted sum of vertical weighted sums of the same component of the source (fixed point, rounded, clamped to 1023), full alpha, and leaves row padding alone.", "quantifier": "every accepted packed resize, layout, byte order, machine endianness, filter, size and stride", "why_tests_cant": "All pictures, sizes, window sizes and strides.", "anchors": ["src/resize_ar30.rs: resize_ar30_impl", "src/fixed_point_horizontal_ar30.rs", "src/fixed_point_vertical_ar30.rs", "src/dispatch_group_ar30.rs"]}
{"id": "C50", "title": "resize_ar30 reports errors and then leaves the destination alone", "statement": "resize_ar30 returns Ok exactly for non-zero, representable sizes with buffers of stride*height bytes and strides of at least 4*width; otherwise the error of the first failed check is returned and no destination byte changes.", "quantifier": "every pair of buffers, strides and sizes", "why_tests_cant": "All combinations of sizes and strides.", "anchors": ["src/resize_ar30.rs: resize_ar30_impl", "src/support.rs: check_image_size_overflow"]}
{"id": "C51", "title": "Parallel row loops finish, do not deadlock and have no data race", "statement": "On every schedule the parallel loops over rows end after finitely many steps, as long as a row is unfinished some task can go on, different rows never touch the same element, and each step changes at most one element of the running task's own rows.", "quantifier": "every interleaving of the row tasks, every closure and buffer", "why_tests_cant": "Schedules cannot be enumerated by tests.", "anchors": ["src/dispatch_group_u8.rs", "src/dispatch_group_u16.rs", "src/dispatch_group_f32.rs", "src/dispatch_group_ar30.rs", "src/nearest_sampler.rs", "src/alpha_handle_u8.rs"]}
{"id": "C52", "title": "x86 vector handlers stay inside the buffers", "statement": "On x86, whatever SIMD and scalar handlers the CPU and the workload strategy select, an accepted 8-bit convolution resize returns Ok without reading or writing outside the source, weight and destination buffers, and leaves row padding alone.", "quantifier": "every accepted 8-bit resize with 1 to 4 channels, every CPU, strategy, filter, stride, size and sample values, also when accumulators overflow", "why_tests_cant": "Unchecked vector loads and stores of 8 to 64 bytes at every tail length of every row and window.", "anchors": ["src/sse/*_u8.rs", "src/avx2/*_u8.rs", "src/dispatch_group_u8.rs", "src/plane_u8.rs", "src/cbcr8.rs", "src/rgb_u8.rs", "src/rgba_u8.rs"]}
{"id": "C53", "title": "PreferQuality vector handlers round the weighted sum to nearest", "statement": "With WorkloadStrategy::PreferQuality each pass of an x86 8-bit resize writes the fixed point weighted sum of the window rounded to nearest and clamped to 0..=255.", "quantifier": "every accepted resize, CPU, filter, size, stride and picture", "why_tests_cant": "All pictures, window sizes and block decompositions.", "anchors": ["src/sse/vertical_u8.rs", "src/avx2/vertical_u8.rs", "src/sse/rgba_u8.rs", "src/avx2/rgba_u8.rs", "src/sse/rgb_u8.rs", "src/sse/plane_u8.rs", "src/avx2/plane_u8.rs", "src/sse/cbcr8.rs"]}
{"id": "C54", "title": "PreferSpeed passes have a known formula and stay within a stated error", "statement": "With WorkloadStrategy::PreferSpeed every pass of an x86 8-bit resize writes the same low precision sum of the window (6 fractional bits per tap) and differs from the exact weighted sum by at most a stated bound; black stays black and a flat picture keeps its value.", "quantifier": "every accepted resize, filter, size, stride and picture", "why_tests_cant": "All pictures and weights; 16-bit accumulators may wrap.", "anchors": ["src/sse/vertical_u8_lp.rs", "src/avx2/vertical_u8_lp.rs", "src/avx2/rgba_u8_lb.rs", "src/handler_provider.rs"]}
{"id": "C55", "title": "x86 handlers filter all channels alike", "statement": "If two channels of the source are equal, the same channels of the result are equal, with every vector handler.", "quantifier": "every accepted resize, CPU, strategy, filter, size and pair of channels", "why_tests_cant": "All pictures and window sizes.", "anchors": ["src/avx2/rgba_u8_lb.rs", "src/avx2/rgba_u8.rs", "src/sse/rgba_u8.rs", "src/sse/rgb_u8.rs", "src/avx2/rgb_u8.rs"]}
{"id": "C56", "title": "The result does not depend on the CPU", "statement": "Two x86 CPUs with different instruction sets give the same picture for the same call.", "quantifier": "every pair of CPUs and every accepted resize", "why_tests_cant": "All pictures for all pairs of handler implementations.", "anchors": ["src/rgba_u8.rs", "src/rgb_u8.rs", "src/plane_u8.rs", "src/cbcr8.rs", "src/fixed_point_vertical.rs", "src/sse/vertical_u8.rs", "src/avx2/vertical_u8.rs"]}
{"id": "C57", "title": "Vector handlers run only on CPUs that have the instructions", "statement": "A resize never executes an AVX2 handler on a CPU without AVX2, nor an SSE4.1 handler without SSE4.1.", "quantifier": "every CPU, strategy, channel count and size", "why_tests_cant": "Depends on CPU models one does not test on.", "anchors": ["src/rgba_u8.rs: dispatcher", "src/dispatch_group_u8.rs", "src/plane_u8.rs", "src/cbcr8.rs", "src/rgb_u8.rs"]}
{"id": "C58", "title": "With vector handlers an output pixel depends only on its window", "statement": "Changing source pixels outside the windows of an output pixel does not change that pixel, with every x86 handler.", "quantifier": "every accepted resize, CPU, strategy, filter, size, and pair of pictures", "why_tests_cant": "Non-interference over all pairs of pictures.", "anchors": ["src/avx2/rgb_u8.rs", "src/sse/rgb_u8.rs", "src/avx2/rgba_u8.rs", "src/sse/rgba_u8.rs", "src/sse/cbcr8.rs", "src/sse/plane_u8.rs"]}
{"id": "C59", "title": "The C entry points do what the Rust call does", "statement": "A call of a pic_scale_resize_* C function whose pointers are aligned for the sample type and whose strides are whole numbers of samples returns 0 exactly when the Rust resize succeeds and the code of the Rust error otherwise; the destination bytes are those of the Rust result, bytes behind the rows are untouched, on an error no byte changes, and the multithreading flag plays no role.", "quantifier": "every C call with aligned pointers: all sizes, strides, pictures, filters, flags, bit depths and thread schedules", "why_tests_cant": "All memory contents, sizes and schedules.", "anchors": ["picscale/src/lib.rs", "src/scaler.rs: Scaler::resize"]}
{"id": "C60", "title": "Alignment of C pointers does not matter", "statement": "A C caller may pass pointers and byte strides that are not multiples of the sample size; the pictures are read and written row by row at the given byte strides.", "quantifier": "every address and stride", "why_tests_cant": "All addresses and strides; out of bounds slices may go unnoticed in a test.", "anchors": ["picscale/src/lib.rs: pic_scale_scale_generic"]}
{"id": "C61", "title": "Vector premultiplication of RGBA8", "statement": "On an x86 CPU with SSE4.1 or AVX2, premultiplying an RGBA8 image succeeds without touching memory outside the images or row padding, and replaces every colour c by c*a/255 to within 43/85 of a level: the full colour for an opaque pixel, 0 for a transparent one.", "quantifier": "every RGBA8 image, any size, stride and samples", "why_tests_cant": "All pictures and widths, with every split into vector chunks and remainder.", "anchors": ["src/sse/alpha_u8.rs", "src/avx2/alpha_u8.rs", "src/alpha_handle_u8.rs"]}
{"id": "C62", "title": "Vector unpremultiplication of RGBA8", "statement": "On an x86 CPU with SSE4.1 or AVX2, unpremultiplying an RGBA8 image replaces every colour c by min(255, 255 c/a) to within 3/5 of a level (0 if a = 0, c if a = 255), keeps alpha and row padding, whatever the reciprocal approximation instruction returns within its documented accuracy.", "quantifier": "every RGBA8 image, and every reciprocal approximation with relative error up to 1.5*2^-12", "why_tests_cant": "All pictures and all CPUs: the reciprocal instruction is implemented differently by each vendor.", "anchors": ["src/sse/alpha_u8.rs", "src/avx2/alpha_u8.rs"]}
{"id": "C63", "title": "RGBA8 resize with alpha on x86", "statement": "On x86, an RGBA8 resize with premultiply_alpha = true returns Ok and gives the plain resize of the premultiplied picture with its colours divided by its alpha; for a picture of constant alpha it gives what the plain resize gives.", "quantifier": "every accepted RGBA8 resize, CPU and strategy", "why_tests_cant": "All pictures, sizes, filters and CPUs.", "anchors": ["src/scaler.rs: generic_resize_with_alpha", "src/alpha_handle_u8.rs", "src/alpha_check.rs", "src/sse/alpha_u8.rs", "src/avx2/alpha_u8.rs"]}
{"id": "C64", "title": "Vector alpha checks are exact", "statement": "On x86 the check that decides whether premultiplication is needed answers yes iff two pixels have different alpha, for RGBA8 and RGBA16.", "quantifier": "every image of every size", "why_tests_cant": "All pictures; accumulators wrap for very wide rows only.", "anchors": ["src/sse/check_alpha.rs", "src/avx2/check_alpha.rs", "src/alpha_check.rs"]}
{"id": "C65", "title": "Premultiplying and unpremultiplying gives the picture back", "statement": "On x86, premultiplying an RGBA8 picture and unpremultiplying the result gives every alpha back exactly and every colour to within 129/a + 3/5 levels (opaque pixels exactly).", "quantifier": "every RGBA8 picture", "why_tests_cant": "All pictures, all reciprocal approximations.", "anchors": ["src/sse/alpha_u8.rs", "src/avx2/alpha_u8.rs"]}
{"id": "C66", "title": "Premultiplication keeps alpha", "statement": "Premultiplying an RGBA8 picture on x86 leaves the alpha channel as it is.", "quantifier": "every RGBA8 picture and CPU", "why_tests_cant": "All pictures and CPUs.", "anchors": ["src/sse/alpha_u8.rs", "src/avx2/alpha_u8.rs", "src/alpha_handle_u8.rs"]}
{"id": "C67", "title": "Vector premultiplication of 10-bit and 12-bit RGBA16", "statement": "On an x86 CPU with SSE4.1 or AVX2, premultiplying a 10-bit or 12-bit RGBA16 image replaces every colour c by c*a/max rounded to nearest exactly, keeps every alpha and never touches row padding.", "quantifier": "every RGBA16 image of depth 10 or 12, CPU with and without FMA", "why_tests_cant": "All pictures: every pair of colour and alpha in every lane and in the remainder chunk.", "anchors": ["src/sse/alpha_u16.rs", "src/avx2/alpha_u16.rs", "src/alpha_handle_u16.rs"]}
{"id": "C68", "title": "Vector premultiplication of 16-bit RGBA16", "statement": "On an x86 CPU with SSE4.1 or AVX2, premultiplying a 16-bit RGBA16 image replaces every colour c by c*a/65535 rounded to nearest.", "quantifier": "every 16-bit RGBA16 image", "why_tests_cant": "All pictures.", "anchors": ["src/sse/alpha_u16.rs", "src/avx2/alpha_u16.rs"]}
{"id": "C69", "title": "Vector premultiplication of RGBA16 at other depths", "statement": "On an x86 CPU with SSE4.1 or AVX2, premultiplying an RGBA16 image of any other depth below 16 gives c*a/max to within 0.51 (so opaque pixels stay, transparent ones become 0 and nothing exceeds the depth) and keeps alpha.", "quantifier": "every RGBA16 image and depth", "why_tests_cant": "All pictures and depths; binary32 rounding.", "anchors": ["src/sse/alpha_u16.rs", "src/avx2/alpha_u16.rs"]}
{"id": "C70", "title": "RGBA16 alpha is kept by the vector handlers", "statement": "On x86 with SSE4.1 or AVX2, at every depth, premultiplication and unpremultiplication of RGBA16 images keep the alpha channel, the image shape and row padding, and never leave a buffer.", "quantifier": "every RGBA16 image, depth and CPU", "why_tests_cant": "All pictures, all widths (remainder chunks), all depths.", "anchors": ["src/sse/alpha_u16.rs", "src/avx2/alpha_u16.rs", "src/alpha_handle_u16.rs"]}
{"id": "C71", "title": "Vector unpremultiplication of RGBA16", "statement": "On x86 with SSE4.1 or AVX2, unpremultiplying a premultiplied RGBA16 image gives max*c/a to within 1.01 + 1/2048 of the value, and leaves transparent pixels alone.", "quantifier": "every premultiplied RGBA16 image and depth, every reciprocal approximation within its documented accuracy", "why_tests_cant": "All pictures and CPUs.", "anchors": ["src/sse/alpha_u16.rs", "src/avx2/alpha_u16.rs"]}
{"id": "C72", "title": "Unpremultiplied RGBA16 samples fit the depth", "statement": "On x86, unpremultiplying a premultiplied RGBA16 image of depth d gives samples of at most 2^d - 1.", "quantifier": "every premultiplied RGBA16 image and depth", "why_tests_cant": "All pictures and CPUs.", "anchors": ["src/sse/alpha_u16.rs", "src/avx2/alpha_u16.rs"]}
{"id": "C73", "title": "Float premultiplication on x86", "statement": "On every x86 CPU, premultiplying an RGBA f32 image replaces every colour by the correctly rounded binary32 product with alpha, keeps alpha exactly and never touches row padding, for every width.", "quantifier": "every RGBA f32 image (finite samples) and CPU", "why_tests_cant": "All pictures and widths: vector chunks and scalar remainder.", "anchors": ["src/sse/alpha_f32.rs", "src/avx2/alpha_f32.rs", "src/alpha_handle_f32.rs"]}
{"id": "C74", "title": "Float unpremultiplication on x86", "statement": "On every x86 CPU, unpremultiplying an RGBA f32 image gives c/a to one part in 2^22 (0 for transparent pixels), keeps alpha exactly and never touches row padding.", "quantifier": "every RGBA f32 image with alphas 0 or of magnitude 2^-100 to 2^100, every CPU", "why_tests_cant": "All pictures; binary32 rounding errors.", "anchors": ["src/sse/alpha_f32.rs", "src/avx2/alpha_f32.rs", "src/alpha_handle_f32.rs"]}
{"id": "C75", "title": "Equal float pixels unpremultiply equally", "statement": "Two equal pixels of an RGBA f32 image have equal unpremultiplied values whatever their columns.", "quantifier": "every RGBA f32 image, pair of pixels and CPU", "why_tests_cant": "All pictures and widths.", "anchors": ["src/sse/alpha_f32.rs", "src/avx2/alpha_f32.rs", "src/alpha_handle_f32.rs"]}
{"id": "C76", "title": "u16 resizes stay inside the buffers on x86", "statement": "On every x86 CPU (with or without SSE4.1, AVX2, FMA), an accepted resize of a u16 image returns normally, reads nothing outside its buffers and writes only pixels of the destination, for every depth, filter, size and sample values.", "quantifier": "every accepted u16 call with 1 to 4 channels, every CPU", "why_tests_cant": "The unsafe vector code reads raw pointers: every width, window size and tail must be covered.", "anchors": ["src/sse/vertical_u16_lb.rs", "src/avx2/vertical_u16_lb.rs", "src/sse/rgba_u16_lb.rs", "src/avx2/rgba_u16_lb.rs", "src/sse/vertical_u16.rs", "src/sse/rgba_u16.rs", "src/handler_provider.rs"]}
{"id": "C77", "title": "u16 vertical pass uses its own column", "statement": "On x86 with SSE4.1 or AVX2, a resize of a u16 image of up to 12 bits that keeps the width computes every sample as the rounded and clamped weighted sum of its own column.", "quantifier": "every accepted call, width, CPU with vector instructions and in-range picture", "why_tests_cant": "Wrong columns appear only for some widths (tails of the vector loop).", "anchors": ["src/sse/vertical_u16_lb.rs", "src/avx2/vertical_u16_lb.rs"]}
{"id": "C78", "title": "u16 horizontal pass does not depend on the CPU", "statement": "A resize of a u16 image of up to 12 bits that keeps the height gives the same picture on every x86 CPU: each sample is the weighted sum of its row and channel, rounded to nearest and clamped to the depth.", "quantifier": "every accepted call and every CPU", "why_tests_cant": "All window sizes (groups of 8, 4, 2, 1 taps), rows (groups of four) and CPUs.", "anchors": ["src/sse/rgba_u16_lb.rs", "src/avx2/rgba_u16_lb.rs", "src/fixed_point_horizontal.rs"]}
{"id": "C79", "title": "u16 samples of up to 12 bits stay within the depth on x86", "statement": "On every x86 CPU, resizing a picture whose samples fit its depth (up to 12 bits) gives samples that fit the depth.", "quantifier": "every accepted call and CPU", "why_tests_cant": "All pictures, kernels with negative lobes, all loop tails.", "anchors": ["src/sse/vertical_u16_lb.rs", "src/avx2/vertical_u16_lb.rs", "src/sse/rgba_u16_lb.rs", "src/avx2/rgba_u16_lb.rs"]}
{"id": "C80", "title": "u16 samples above 12 bits stay within the depth on x86", "statement": "On every x86 CPU, a resize into an image of 13 to 16 bits writes only samples that fit the depth, whatever the source samples are.", "quantifier": "every accepted call, CPU and picture", "why_tests_cant": "All pictures and kernels.", "anchors": ["src/sse/vertical_u16.rs", "src/sse/rgba_u16.rs", "src/mixed_storage.rs"]}
{"id": "C81", "title": "Equal rows stay equal above 12 bits on x86", "statement": "A resize of a 13 to 16-bit image that keeps the height treats all rows alike: the value of a sample is the same function of its source row wherever the row is.", "quantifier": "every accepted call, row and CPU", "why_tests_cant": "Rows are processed in groups of four and singly by different code; heights and window sizes are unbounded.", "anchors": ["src/sse/rgba_u16.rs", "src/dispatch_group_u16.rs"]}
{"id": "C82", "title": "u16 vertical results do not depend on the CPU", "statement": "A resize of a u16 image of up to 12 bits that keeps the width gives the same picture on every x86 CPU.", "quantifier": "every accepted call and pair of CPUs", "why_tests_cant": "All pictures, widths and CPUs.", "anchors": ["src/sse/vertical_u16_lb.rs", "src/avx2/vertical_u16_lb.rs", "src/fixed_point_vertical.rs"]}
{"id": "C83", "title": "Flat rows stay flat up to 12 bits on x86", "statement": "If every row of a u16 image of up to 12 bits holds one sample value, so does every row of a resize that keeps the width.", "quantifier": "every accepted call, CPU and such picture", "why_tests_cant": "All widths: vector groups and scalar tails must agree.", "anchors": ["src/sse/vertical_u16_lb.rs", "src/avx2/vertical_u16_lb.rs"]}
{"id": "C84", "title": "u16 channels do not mix on x86", "statement": "On x86, a resize of a u16 image of up to 12 bits computes every sample from samples of its own channel only: vertical window first, then horizontal window.", "quantifier": "every accepted call, channel count and CPU", "why_tests_cant": "All widths and pictures.", "anchors": ["src/sse/vertical_u16_lb.rs", "src/avx2/vertical_u16_lb.rs", "src/sse/rgba_u16_lb.rs"]}
{"id": "C85", "title": "u16 results are clamped to the depth whatever the samples", "statement": "On x86, a resize into an image of up to 12 bits writes samples that fit the depth even if source samples do not.", "quantifier": "every accepted call, CPU and picture", "why_tests_cant": "All pictures: intermediate sums and saturating packs.", "anchors": ["src/sse/vertical_u16_lb.rs", "src/sse/rgba_u16_lb.rs"]}
{"id": "C86", "title": "Flat rows stay flat above 12 bits on x86", "statement": "If every row of a 13 to 16-bit image holds one sample value, so does every row of a resize that keeps the width.", "quantifier": "every accepted call, CPU and such picture", "why_tests_cant": "All widths: vector groups round to nearest, scalar tails round up.", "anchors": ["src/sse/vertical_u16.rs", "src/mixed_storage.rs"]}
{"id": "C87", "title": "f32 resizes stay inside the buffers on x86", "statement": "On every x86 CPU (with or without SSE4.1, AVX2, FMA), an accepted resize of an f32 image returns normally, reads nothing outside its buffers and writes only pixels of the destination, for every filter, size and sample values including NaN and infinities.", "quantifier": "every accepted f32 call with 1 to 4 channels, every CPU, any arithmetic", "why_tests_cant": "The unsafe vector code reads raw pointers: every width, window size and tail must be covered.", "anchors": ["src/sse/vertical_f32.rs", "src/avx2/vertical_f32.rs", "src/sse/plane_f32.rs", "src/sse/rgb_f32.rs", "src/sse/rgba_f32.rs", "src/avx2/rgba_f32.rs", "src/dispatch_group_f32.rs"]}
{"id": "C88", "title": "f32 vertical results on x86 are those of the portable code", "statement": "A resize of a finite f32 image that keeps the width gives on every x86 CPU exactly the image of the portable code with the same kind of multiply-add (fused only with AVX2 and FMA); without FMA all CPUs agree bit for bit.", "quantifier": "every accepted f32 call, channel count, CPU and finite picture", "why_tests_cant": "Widths are cut into groups of 32, 24, 16, 8, 4 and single samples by different code.", "anchors": ["src/sse/vertical_f32.rs", "src/avx2/vertical_f32.rs", "src/floating_point_vertical.rs"]}
{"id": "C89", "title": "f32 results for two and three channels on x86 are those of the portable code", "statement": "A resize of a finite f32 image with two or three channels (or four without AVX2) gives on every x86 CPU without FMA exactly the image of the portable code; and with AVX2 and FMA in a fusing build exactly that of the portable fusing code.", "quantifier": "every accepted call, CPU and finite picture", "why_tests_cant": "All window sizes and pictures; rounding is not associative, so any change of order shows for some picture.", "anchors": ["src/sse/rgb_f32.rs", "src/sse/rgba_f32.rs", "src/sse/vertical_f32.rs", "src/avx2/vertical_f32.rs"]}
{"id": "C90", "title": "f32 results are accurate on x86", "statement": "On every x86 CPU every sample of a resized finite f32 image with two, three or four channels (and of any image whose width is kept) differs from the exactly computed weighted sum by at most the binary32 rounding bound of a sum of that many terms; so two CPUs differ by at most twice that bound.", "quantifier": "every accepted call, CPU, finite picture, kernel and window size", "why_tests_cant": "An error bound quantifies over all pictures, weights and orders of addition.", "anchors": ["src/sse/vertical_f32.rs", "src/avx2/vertical_f32.rs", "src/sse/plane_f32.rs", "src/sse/rgb_f32.rs", "src/sse/rgba_f32.rs", "src/avx2/rgba_f32.rs", "src/dispatch_group_f32.rs"]}
{"id": "C91", "title": "One-channel f32 results are accurate on x86", "statement": "The same accuracy for one-channel f32 images in every row.", "quantifier": "every accepted one-channel call, CPU, finite picture and window size", "why_tests_cant": "The faulty loop needs windows of more than 16 taps and rows after the last group of four.", "anchors": ["src/sse/plane_f32.rs"]}
{"id": "C92", "title": "Equal f32 rows stay equal (two and three channels, and four without FMA) on x86", "statement": "When a resize keeps the height, source rows with equal samples become destination rows with equal samples, wherever they are; for two or three channels on every CPU and for four unless AVX2 and FMA are both present.", "quantifier": "every accepted call, pair of rows, CPU and picture, any arithmetic", "why_tests_cant": "Rows are processed in groups of four and singly by different code; heights and window sizes are unbounded.", "anchors": ["src/sse/rgb_f32.rs", "src/sse/rgba_f32.rs", "src/avx2/rgba_f32.rs", "src/dispatch_group_f32.rs"]}
{"id": "C93", "title": "Equal f32 rows stay equal (one channel, and four with FMA) on x86", "statement": "The same for one channel and for four channels with AVX2 and FMA.", "quantifier": "every accepted call, pair of rows, CPU and picture", "why_tests_cant": "Rows are processed in groups of four and singly by different code; heights and window sizes are unbounded.", "anchors": ["src/sse/plane_f32.rs", "src/avx2/rgba_f32.rs"]}
{"id": "C94", "title": "f32 samples depend only on their windows and channel on x86", "statement": "On every x86 CPU a sample of a resized f32 image depends only on the source samples of its channel inside its vertical and horizontal windows; a NaN or infinity elsewhere does not affect it.", "quantifier": "every accepted call, pair of pictures that agree on the windows, CPU, any arithmetic", "why_tests_cant": "Vector lanes hold neighbouring pixels and channels; leaks would depend on positions, widths and values such as NaN.", "anchors": ["src/sse/vertical_f32.rs", "src/avx2/vertical_f32.rs", "src/sse/plane_f32.rs", "src/sse/rgb_f32.rs", "src/sse/rgba_f32.rs", "src/avx2/rgba_f32.rs", "src/dispatch_group_f32.rs"]}
{"id": "C95", "title": "f32 results of one and four channels do not depend on the CPU without FMA", "statement": "A resize of a finite f32 image of one or four channels gives the same bits on all x86 CPUs without FMA.", "quantifier": "every accepted call, pair of CPUs and finite picture", "why_tests_cant": "All window sizes and pictures; rounding is not associative.", "anchors": ["src/sse/plane_f32.rs", "src/sse/rgba_f32.rs", "src/avx2/rgba_f32.rs"]}
{"id": "C96", "title": "RGBA f32 with premultiplication is resize-then-divide on x86", "statement": "resize_rgba_f32 with premultiply_alpha = true returns Ok on every x86 CPU, keeps row padding, and gives the plain resize of the premultiplied picture (the picture itself if its alpha is constant) with every colour divided by the resized alpha: 0 where that is 0, otherwise within one part in 2^22.", "quantifier": "every accepted RGBA f32 call, CPU, finite picture", "why_tests_cant": "The composition covers all sizes, alphas and pictures; the vector and scalar columns divide differently.", "anchors": ["src/scaler.rs", "src/alpha_handle_f32.rs", "src/avx2/alpha_f32.rs", "src/sse/alpha_f32.rs"]}
{"id": "C97", "title": "The alpha channel of an RGBA f32 resize does not depend on premultiplication", "statement": "resize_rgba_f32 stores the same alpha in every pixel with premultiply_alpha = true and = false.", "quantifier": "every accepted RGBA f32 call and CPU", "why_tests_cant": "Needs all pictures and sizes; several vector loops handle alpha lanes separately.", "anchors": ["src/scaler.rs", "src/alpha_handle_f32.rs"]}
{"id": "C98", "title": "Premultiplication does not change colours of RGBA f32 pictures of constant alpha", "statement": "For a picture whose alpha is the same everywhere, premultiply_alpha = true gives the colours of the plain resize up to rounding.", "quantifier": "every accepted RGBA f32 call, CPU and picture of constant alpha", "why_tests_cant": "Depends on the global check for constant alpha; all alphas must be considered.", "anchors": ["src/scaler.rs", "src/alpha_check.rs"]}
{"id": "C99", "title": "Colour scalers resize in their colour space", "statement": "For pictures without row padding, resize_rgb and resize_rgba of the Lab, Luv, LCh, sigmoidal and XYZ scalers return Ok and every result pixel is the back-conversion of the pixel that the ordinary f32 resize (with the same premultiplication setting) makes of the picture with every pixel converted.", "quantifier": "every accepted call, conversion function, filter, CPU", "why_tests_cant": "The claim is about all conversions, pictures and sizes.", "anchors": ["src/colors/linear_precise_scaler.rs", "src/colors/linear_scaler.rs", "src/colors/lab_scaler.rs", "src/colors/luv_scaler.rs", "src/colors/lch_scaler.rs", "src/colors/oklab_scaler.rs", "src/colors/jzazbz_scaler.rs", "src/colors/sigmoidal_scaler.rs", "src/colors/xyz_scaler.rs"]}
{"id": "C100", "title": "Colour scalers use their transfer function", "statement": "The linear (RGB), approximate linear (RGB, RGBA), Oklab and Jzazbz scalers convert to and from their colour space with the transfer function (and luminance) given to new().", "quantifier": "every accepted call, transfer function, conversion", "why_tests_cant": "Equality for all transfer functions and pictures.", "anchors": ["src/colors/linear_precise_scaler.rs", "src/colors/linear_scaler.rs", "src/colors/oklab_scaler.rs", "src/colors/jzazbz_scaler.rs"]}
{"id": "C101", "title": "The linear scaler's RGBA resize uses its transfer function", "statement": "LinearScaler::resize_rgba converts with the transfer function given to new().", "quantifier": "every accepted call, transfer function, conversion", "why_tests_cant": "Equality for all transfer functions and pictures.", "anchors": ["src/colors/linear_precise_scaler.rs"]}
{"id": "C102", "title": "Colour scalers honour row padding", "statement": "The result of a colour scaler does not depend on the row padding of the source, and the row padding of the destination is not written.", "quantifier": "every accepted call, pair of strides", "why_tests_cant": "All strides and paddings.", "anchors": ["src/colors/linear_precise_scaler.rs", "src/colors/linear_scaler.rs", "src/colors/lab_scaler.rs", "src/colors/luv_scaler.rs", "src/colors/lch_scaler.rs", "src/colors/oklab_scaler.rs", "src/colors/jzazbz_scaler.rs", "src/colors/sigmoidal_scaler.rs", "src/colors/xyz_scaler.rs"]}
{"id": "C103", "title": "Colour scalers copy pictures of equal size", "statement": "When source and destination have the same size every colour scaler copies every sample unchanged, for any strides.", "quantifier": "all nine scalers, every accepted call with equal sizes", "why_tests_cant": "All pictures, sizes and strides.", "anchors": ["src/colors/linear_precise_scaler.rs", "src/colors/linear_scaler.rs", "src/colors/lab_scaler.rs", "src/colors/luv_scaler.rs", "src/colors/lch_scaler.rs", "src/colors/oklab_scaler.rs", "src/colors/jzazbz_scaler.rs", "src/colors/sigmoidal_scaler.rs", "src/colors/xyz_scaler.rs"]}
{"id": "C104", "title": "Colour scalers report the ordinary scaler's errors", "statement": "resize_rgb and resize_rgba of every colour scaler fail exactly when the ordinary scaler fails on the same images, with the same error, and then leave the destination untouched; the inner resize adds no errors.", "quantifier": "all nine scalers, every pair of images", "why_tests_cant": "All malformed and well-formed images.", "anchors": ["src/colors/linear_precise_scaler.rs", "src/colors/linear_scaler.rs", "src/colors/lab_scaler.rs", "src/colors/luv_scaler.rs", "src/colors/lch_scaler.rs", "src/colors/oklab_scaler.rs", "src/colors/jzazbz_scaler.rs", "src/colors/sigmoidal_scaler.rs", "src/colors/xyz_scaler.rs"]}
{"id": "C105", "title": "Every scaler resizes two-channel pictures", "statement": "resize_cbcr8 of every implementation of the Scaling trait resizes a valid two-channel picture.", "quantifier": "the ten implementations, every accepted call", "why_tests_cant": "All pictures and sizes.", "anchors": ["src/colors/linear_precise_scaler.rs", "src/colors/linear_scaler.rs", "src/colors/lab_scaler.rs", "src/colors/luv_scaler.rs", "src/colors/lch_scaler.rs", "src/colors/oklab_scaler.rs", "src/colors/jzazbz_scaler.rs", "src/colors/sigmoidal_scaler.rs", "src/colors/xyz_scaler.rs"]}
{"id": "C106", "title": "Colour scalers are local", "statement": "A pixel of the result of an f32 colour scaler (RGB, or RGBA without premultiplication) depends only on the source pixels in its vertical and horizontal windows.", "quantifier": "every pair of pictures that agree on the windows, conversion, filter, CPU", "why_tests_cant": "Quantifies over pairs of pictures.", "anchors": ["src/colors/linear_precise_scaler.rs", "src/colors/linear_scaler.rs", "src/colors/lab_scaler.rs", "src/colors/luv_scaler.rs", "src/colors/lch_scaler.rs", "src/colors/oklab_scaler.rs", "src/colors/jzazbz_scaler.rs", "src/colors/sigmoidal_scaler.rs", "src/colors/xyz_scaler.rs"]}
{"id": "C107", "title": "Premultiplied RGBA f32 resizes are local", "statement": "With premultiply_alpha = true a pixel of a resized RGBA f32 picture depends only on the source pixels in its windows.", "quantifier": "every pair of pictures that agree on the windows, filter, CPU", "why_tests_cant": "Quantifies over pairs of pictures; the alpha check is global.", "anchors": ["src/scaler.rs", "src/alpha_check.rs", "src/alpha_handle_f32.rs"]}
{"id": "C108", "title": "Packed 10-bit resizes stay in bounds on x86_64", "statement": "On every x86_64 processor, with or without SSE4.1, every accepted convolution resize of packed 10-bit images returns Ok without an out-of-bounds access, keeps the length of the destination and its row padding.", "quantifier": "every processor, layout, byte order, filter, picture, pair of sizes; equal strides when only the height changes", "why_tests_cant": "The vector code uses raw pointers; all sizes, windows and remainders must be covered.", "anchors": ["src/sse/horizontal_ar30.rs", "src/sse/vertical_ar30.rs", "src/sse/utils.rs", "src/dispatch_group_ar30.rs", "src/resize_ar30.rs"]}
{"id": "C109", "title": "Vertical resizes of packed 10-bit images are exact with SSE4.1", "statement": "When only the height changes, each 10-bit component is the full weighted sum of its window rounded to nearest and clamped, alpha is full, and the result equals the portable one except at exact ties, where it is at most one less.", "quantifier": "every picture, filter, layout, byte order, pair of heights (accumulators below 2^30)", "why_tests_cant": "All pictures and windows.", "anchors": ["src/sse/horizontal_ar30.rs", "src/sse/vertical_ar30.rs", "src/sse/utils.rs", "src/dispatch_group_ar30.rs", "src/resize_ar30.rs"]}
{"id": "C110", "title": "Resizes of packed 10-bit images are separable with SSE4.1", "statement": "Each 10-bit component of the result is the horizontal weighted sum of the vertical weighted sums of the same component, each weight applied to its own pixel, and alpha is full.", "quantifier": "every picture, filter, layout, byte order, pair of sizes (accumulators below 2^30)", "why_tests_cant": "All pictures and windows.", "anchors": ["src/sse/horizontal_ar30.rs", "src/sse/vertical_ar30.rs", "src/sse/utils.rs", "src/dispatch_group_ar30.rs", "src/resize_ar30.rs"]}
{"id": "C111", "title": "Equal source rows give equal destination rows for packed 10-bit images with SSE4.1", "statement": "When only the width changes, two equal source rows give two equal destination rows, wherever they are in the image.", "quantifier": "every picture, filter, row index", "why_tests_cant": "All heights, rows and windows.", "anchors": ["src/sse/horizontal_ar30.rs", "src/sse/vertical_ar30.rs", "src/sse/utils.rs", "src/dispatch_group_ar30.rs", "src/resize_ar30.rs"]}
{"id": "C112", "title": "Rows of one colour keep their brightness in packed 10-bit images with SSE4.1", "statement": "When only the width changes and every source row is of one colour, rows handled in groups of four get that colour times the sum of the weights, rounded, within one of the portable result, for windows of every size.", "quantifier": "every picture with rows of one colour, filter, width", "why_tests_cant": "All colours and windows.", "anchors": ["src/sse/horizontal_ar30.rs", "src/sse/vertical_ar30.rs", "src/sse/utils.rs", "src/dispatch_group_ar30.rs", "src/resize_ar30.rs"]}
{"id": "C113", "title": "resize_ar30 errors on x86_64", "statement": "resize_ar30 returns Ok exactly for images of non-zero representable size with well-formed buffers; otherwise it returns the documented error and leaves the destination untouched, on every processor.", "quantifier": "every processor and pair of images", "why_tests_cant": "All malformed and well-formed images.", "anchors": ["src/resize_ar30.rs"]}
{"id": "C114", "title": "Resizes of packed 10-bit images are local with SSE4.1", "statement": "A component of a destination pixel depends only on the same component of the source pixels in its vertical and horizontal windows, not on strides or padding.", "quantifier": "every pair of pictures that agree on the windows, filter, layout, byte order (accumulators below 2^30)", "why_tests_cant": "Quantifies over pairs of pictures.", "anchors": ["src/sse/horizontal_ar30.rs", "src/sse/vertical_ar30.rs", "src/sse/utils.rs", "src/dispatch_group_ar30.rs", "src/resize_ar30.rs"]}
{"id": "C115", "title": "Averaging filters never overflow the integer accumulators", "statement": "With Bilinear, Box, Area, Quadric, EwaQuadric, Welch or Hann, a resize of an 8-bit, 10-bit or 12-bit image never wraps around in a 32-bit accumulator however many source pixels fall on one destination pixel: the quantised weights of a destination coordinate add up to at most eight times unity, and every 8-bit sample is the exact two-pass fixed point value.", "quantifier": "every averaging filter, every pair of sizes with source dimensions up to 2^23, every picture", "why_tests_cant": "Rounding of sums of up to eight million weights; no test reaches these window sizes.", "anchors": ["src/scaler.rs:Scaler::generate_weights", "src/filter_weights.rs:numerical_approximation", "src/fixed_point_horizontal.rs", "src/fixed_point_vertical.rs"]}
{"id": "C116", "title": "Averaging weights add up to one in single precision", "statement": "For Bilinear, Box, Area, Quadric, EwaQuadric and Welch the weights of every destination coordinate with n taps are non-negative and add up to one up to (2n+5) 2^-24, in the binary32 arithmetic of the code.", "quantifier": "every pair of sizes with source up to 2^23, every destination coordinate", "why_tests_cant": "Accumulated rounding errors over all sizes.", "anchors": ["src/scaler.rs:Scaler::generate_weights", "src/sampler.rs"]}
{"id": "C117", "title": "Uniform 8-bit images keep their value under averaging filters", "statement": "A uniform 8-bit image of value v resized with one of these filters with windows of at most 124 taps gives samples v, or v-1 where a vertical pass was made.", "quantifier": "every value, every number of channels, every pair of sizes whose windows have at most 124 taps", "why_tests_cant": "All sizes and values; depends on the rounding of every weight.", "anchors": ["src/scaler.rs:Scaler::generate_weights", "src/filter_weights.rs:numerical_approximation", "src/fixed_point_horizontal.rs"]}
{"id": "C118", "title": "Brightness is kept at every reduction ratio", "statement": "A uniform 8-bit image keeps its value, up to one level, when it is reduced by any ratio.", "quantifier": "every value and every pair of sizes", "why_tests_cant": "Fails only at extreme ratios.", "anchors": ["src/filter_weights.rs:numerical_approximation", "src/scaler.rs:Scaler::generate_weights"]}
{"id": "C119", "title": "Resizes of 16-bit float images on x86 stay in bounds", "statement": "resize_plane_f16, resize_cbcr_f16, resize_rgb_f16 and resize_rgba_f16 (no alpha) with well-formed images return normally, read nothing outside the buffers and keep the destination's shape, whatever the samples (NaN and infinities included) and whatever vector instructions (SSE4.1, AVX2, F16C, FMA) the processor has.", "quantifier": "every x86 processor, picture, size, stride, filter, number of channels", "why_tests_cant": "Vector loads of 2 to 16 halves at every position of every window; tests run on one processor and a few sizes.", "anchors": ["src/f16.rs", "src/sse/rgb_f16.rs", "src/sse/rgba_f16.rs", "src/sse/vertical_f16.rs", "src/avx2/rgba_f16.rs", "src/avx2/vertical_f16.rs", "src/dispatch_group_f16.rs"]}
{"id": "C120", "title": "16-bit float resizes keep row padding where they are vectorised", "statement": "A resize of 16-bit float images that keeps the width, or of three or four channels on a processor with SSE4.1, changes nothing but pixels.", "quantifier": "every picture, size, stride, filter", "why_tests_cant": "All strides and sizes.", "anchors": ["src/f16.rs", "src/sse/rgb_f16.rs", "src/sse/rgba_f16.rs", "src/avx2/rgba_f16.rs"]}
{"id": "C121", "title": "16-bit float resizes always keep row padding", "statement": "No resize of 16-bit float images writes outside the pixels of the destination.", "quantifier": "every processor, picture, size, stride, filter, number of channels", "why_tests_cant": "Needs padded destinations; the code that is selected depends on the processor.", "anchors": ["src/f16.rs:convolve_horizontal_rgb_native_row_f16", "src/f16.rs:convolve_horizontal_rgba_4_row_f16"]}
{"id": "C122", "title": "Samples of resized 16-bit float images", "statement": "Every sample is the separable resize of its channel: each pass widens its samples to binary32, adds the products in the order of the processor with one rounding per operation, and narrows once to a half. Processors with the same order and IEEE conversions give the same pixels.", "quantifier": "every processor, picture, size, filter, number of channels", "why_tests_cant": "All pictures and sizes; depends on rounding.", "anchors": ["src/f16.rs", "src/sse/rgb_f16.rs", "src/sse/rgba_f16.rs", "src/sse/vertical_f16.rs", "src/avx2/rgba_f16.rs", "src/avx2/vertical_f16.rs"]}
{"id": "C123", "title": "Resizes of 16-bit float images are local", "statement": "A destination sample depends only on the source samples of its channel in its windows: what is elsewhere, NaN and infinities included, and strides and padding do not matter.", "quantifier": "every processor, every pair of pictures that agree on the windows", "why_tests_cant": "Quantifies over pairs of pictures.", "anchors": ["src/f16.rs", "src/sse/rgb_f16.rs", "src/sse/rgba_f16.rs", "src/sse/vertical_f16.rs", "src/avx2/rgba_f16.rs", "src/avx2/vertical_f16.rs"]}
{"id": "C124", "title": "Accuracy of resized 16-bit float images", "statement": "If the samples are finite and the result is below 65520, every resized sample is a finite half within the binary32 summation error plus half a unit in the last place of a half (per pass) of the exact weighted sum, on every processor with F16C or without SSE4.1; on processors with SSE4.1 only, for non-negative samples and weights.", "quantifier": "every picture, size, filter, number of channels", "why_tests_cant": "Accumulated rounding errors over all pictures and sizes.", "anchors": ["src/f16.rs", "src/sse/rgba_f16.rs", "src/avx2/rgba_f16.rs", "src/sse/vertical_f16.rs", "src/avx2/vertical_f16.rs", "src/sse/f16_utils.rs"]}
{"id": "C125", "title": "Widening halves without F16C is exact", "statement": "On processors without F16C every finite half, normal or subnormal, of either sign, is widened to exactly its value.", "quantifier": "every finite half", "why_tests_cant": "Depends on bit tricks for subnormals; library tests never run without F16C.", "anchors": ["src/sse/f16_utils.rs:_mm_cvtph_ps_fallback"]}
{"id": "C126", "title": "Narrowing to halves without F16C rounds to nearest", "statement": "On processors without F16C every non-negative single below 65520 is narrowed to a nearest half (ties upward), the IEEE result except for ties, and narrowing undoes widening.", "quantifier": "every single from 0 to 65520", "why_tests_cant": "More than a billion inputs, and tests never run without F16C.", "anchors": ["src/sse/f16_utils.rs:_mm_cvtps_ph_fallback"]}
{"id": "C127", "title": "Signs and infinities survive 16-bit float resizes on every processor", "statement": "Negative results stay negative, results of 65520 and more become infinite, and infinities stay infinite when singles are converted to halves, on every processor.", "quantifier": "every processor, every value", "why_tests_cant": "Tests run on one processor.", "anchors": ["src/sse/f16_utils.rs:_mm_cvtps_ph_fallback", "src/sse/f16_utils.rs:_mm_cvtph_ps_fallback"]}
{"id": "C128", "title": "Premultiplication of 16-bit float images", "statement": "Premultiplying an RGBA f16 image of finite samples makes every colour the half nearest to the exact product with alpha (infinity on overflow), keeps every alpha and leaves row padding alone, on every processor with F16C and every one without SSE4.1.", "quantifier": "every such processor, every picture of finite samples, every size and stride", "why_tests_cant": "All pairs of halves at every column; blocks of 8 or 16 pixels and remainders use different code.", "anchors": ["src/alpha_handle_f16.rs", "src/sse/alpha_f16.rs", "src/avx2/alpha_f16.rs"]}
{"id": "C129", "title": "Premultiplication of 16-bit float images without F16C", "statement": "The same on processors with SSE4.1 and without F16C.", "quantifier": "every picture of finite samples, every size and stride", "why_tests_cant": "Tests run on one processor.", "anchors": ["src/sse/alpha_f16.rs", "src/sse/f16_utils.rs"]}
{"id": "C130", "title": "Unpremultiplication of 16-bit float images divides by alpha", "statement": "Unpremultiplying an RGBA f16 image replaces every colour by its quotient by alpha, to within rounding, and by 0 where alpha is 0.", "quantifier": "every processor, every picture of finite samples, every size", "why_tests_cant": "Rows of at least 8 (16) pixels run other code than short rows.", "anchors": ["src/alpha_handle_f16.rs", "src/sse/alpha_f16.rs:sse_unpremultiply_alpha_rgba_f16_row_impl", "src/avx2/alpha_f16.rs:avx_unpremultiply_alpha_rgba_f16_row_impl"]}
{"id": "C131", "title": "Unpremultiplication of 16-bit float images changes only colours", "statement": "Unpremultiplying an RGBA f16 image, whatever its samples, returns normally, accesses nothing outside the buffer and keeps all alphas and row padding.", "quantifier": "every x86 processor, every picture including NaN and infinities, every size and stride", "why_tests_cant": "All sizes and strides.", "anchors": ["src/alpha_handle_f16.rs", "src/sse/alpha_f16.rs", "src/avx2/alpha_f16.rs"]}
{"id": "C132", "title": "A 16-bit float resize with alpha is premultiply, resize, unpremultiply", "statement": "resize_rgba_f16 with premultiply_alpha = true returns Ok, accesses nothing outside the buffers, and is the plain resize of the premultiplied copy followed by unpremultiplication; alphas and everything outside the pixels is as the plain resize left it.", "quantifier": "every x86 processor, accepted pair of images, filter, library", "why_tests_cant": "All pictures and sizes.", "anchors": ["src/scaler.rs: Scaler::generic_resize_with_alpha", "src/scaler_f16.rs:Scaler::resize_rgba_f16", "src/image_store.rs", "src/alpha_handle_f16.rs"]}
{"id": "C133", "title": "The alpha channel of a 16-bit float resize does not depend on premultiplication", "statement": "For finite samples, resize_rgba_f16 stores the same alpha in every pixel with premultiply_alpha = true and false.", "quantifier": "every x86 processor, accepted pair of images, filter", "why_tests_cant": "Relates two calls for all pictures.", "anchors": ["src/scaler_f16.rs:Scaler::resize_rgba_f16", "src/alpha_handle_f16.rs"]}
{"id": "C134", "title": "Colours of a 16-bit float resize with alpha", "statement": "With premultiply_alpha = true every colour of the result is the resized premultiplied colour divided by the resized alpha, to within rounding, and 0 where that alpha is 0.", "quantifier": "every x86 processor, accepted pair of images, filter", "why_tests_cant": "Depends on the width of the destination and the processor.", "anchors": ["src/scaler_f16.rs:Scaler::resize_rgba_f16", "src/sse/alpha_f16.rs", "src/avx2/alpha_f16.rs"]}
{"id": "C135", "title": "A 16-bit RGBA resize with alpha is premultiply, resize, unpremultiply on x86", "statement": "resize_rgba_u16 with premultiply_alpha = true returns Ok, accesses nothing outside the buffers and keeps row padding; it is the plain resize, unpremultiplied, of the source or (when alpha varies) its premultiplied copy, which at 10 and 12 bits has every colour times alpha rounded to nearest and always the same alphas; alphas are as the plain resize left them.", "quantifier": "every x86 CPU with SSE4.1 or AVX2, accepted pair of images at any depth, filter, library", "why_tests_cant": "All pictures and sizes; which code runs depends on the CPU.", "anchors": ["src/scaler.rs:Scaler::generic_resize_with_alpha", "src/alpha_handle_u16.rs", "src/sse/alpha_u16.rs", "src/avx2/alpha_u16.rs", "src/sse/check_alpha.rs", "src/avx2/check_alpha.rs"]}
{"id": "C136", "title": "The alpha channel of a 16-bit RGBA resize does not depend on premultiplication on x86", "statement": "resize_rgba_u16 stores the same alpha in every pixel with premultiply_alpha = true and false.", "quantifier": "every x86 CPU with SSE4.1 or AVX2, accepted pair of images at any depth, filter, library", "why_tests_cant": "Relates two calls for all pictures.", "anchors": ["src/scaler.rs:Scaler::generic_resize_with_alpha", "src/sse/alpha_u16.rs", "src/avx2/alpha_u16.rs", "src/sse/vertical_u16.rs", "src/avx2/vertical_u16_lb.rs"]}
{"id": "C137", "title": "Colours of a 16-bit RGBA resize with alpha on x86", "statement": "With premultiply_alpha = true every colour of the result is the resized premultiplied colour divided by the resized alpha, to within the precision of the reciprocal, and fits the depth.", "quantifier": "every x86 CPU with SSE4.1 or AVX2, accepted pair of images, filter", "why_tests_cant": "All pictures and sizes.", "anchors": ["src/scaler.rs:Scaler::generic_resize_with_alpha", "src/sse/alpha_u16.rs", "src/avx2/alpha_u16.rs"]}
{"id": "C138", "title": "8-bit resizes on AArch64 stay inside their buffers", "statement": "On AArch64, with or without the rdm extension and with either workload strategy, resizing an accepted pair of 8-bit images with 1 to 4 channels returns Ok, loads and stores nothing outside the source and destination, and writes nothing but the destination's pixels.", "quantifier": "every CPU of the architecture, strategy, filter, pair of sizes and strides, picture", "why_tests_cant": "The NEON kernels use raw pointers and hand-written remainder loops; every width, window size and stride matters.", "anchors": ["src/neon/vertical_u8.rs", "src/neon/vertical_u8_rdm.rs", "src/neon/rgba_u8.rs", "src/neon/rgba_u8_rdm.rs", "src/neon/rgb_u8.rs", "src/neon/rgb_u8_sqrdml.rs", "src/neon/plane_u8.rs", "src/neon/plane_u8_rdm.rs", "src/neon/cbcr8_rdm.rs", "src/rgba_u8.rs", "src/rgb_u8.rs", "src/plane_u8.rs", "src/cbcr8.rs"]}
{"id": "C139", "title": "Values of RGB and RGBA resizes with the 32-bit NEON handlers", "statement": "With PreferQuality, or without the rdm extension, each pass of an RGB or RGBA resize is the fixed point weighted sum of the window rounded to nearest (halves down) and clamped, whenever rows leave a remainder of less than 8 bytes after blocks of 16, or no vertical window has exactly three taps, or the height does not change.", "quantifier": "every strategy, filter, pair of sizes, picture whose accumulators cannot overflow", "why_tests_cant": "All widths, window sizes and samples; the sums are split over lanes and blocks.", "anchors": ["src/neon/vertical_u8.rs", "src/neon/rgba_u8.rs", "src/neon/rgb_u8.rs", "src/neon/utils.rs"]}
{"id": "C140", "title": "Columns are filtered alike by the 32-bit NEON handlers", "statement": "In a resize on AArch64 that only changes the height, columns with equal samples stay equal.", "quantifier": "every strategy without rdm, filter, size, picture", "why_tests_cant": "Depends on the width modulo 16 and the window size.", "anchors": ["src/neon/vertical_u8.rs:convolve_vertical_neon_row_full"]}
{"id": "C141", "title": "One-channel images keep their horizontal windows with the 32-bit NEON handlers", "statement": "Resizing the width of an 8-bit one-channel image on AArch64 uses every tap of each window (a white row stays white).", "quantifier": "every strategy without rdm, filter, size, picture", "why_tests_cant": "Universal over pictures: the failure is total for every picture.", "anchors": ["src/neon/plane_u8.rs:convolve_horizontal_plane_neon_rows_4_u8", "src/neon/plane_u8.rs:convolve_horizontal_plane_neon_row"]}
{"id": "C142", "title": "Values of 8-bit resizes with the rdm handlers", "statement": "With the default strategy on an AArch64 CPU with rdm, if neither dimension changes by a factor of eight or more and no 16-bit accumulator can overflow, each pass is the low precision weighted sum of the window, whenever rows leave a remainder of less than 16 bytes after blocks of 32, or no vertical window has exactly four taps, or the height does not change.", "quantifier": "every channel count, filter, pair of sizes, picture", "why_tests_cant": "All widths, window sizes and samples.", "anchors": ["src/neon/vertical_u8_rdm.rs", "src/neon/rgba_u8_rdm.rs", "src/neon/rgb_u8_sqrdml.rs", "src/neon/plane_u8_rdm.rs", "src/neon/cbcr8_rdm.rs"]}
{"id": "C143", "title": "Columns are filtered alike by the rdm handlers", "statement": "In a resize with the default strategy on an AArch64 CPU with rdm that only changes the height, columns with equal samples stay equal.", "quantifier": "every filter, size, picture", "why_tests_cant": "Depends on the width modulo 32 and the window size.", "anchors": ["src/neon/vertical_u8_rdm.rs"]}
{"id": "C144", "title": "The workload strategy changes nothing on AArch64 without rdm", "statement": "On an AArch64 CPU without the rdm extension, PreferQuality and PreferSpeed give exactly the same 8-bit picture.", "quantifier": "every channel count, filter, pair of sizes, picture whose accumulators cannot overflow", "why_tests_cant": "Relates two calls for all pictures.", "anchors": ["src/neon/vertical_u8.rs", "src/neon/rgba_u8.rs", "src/neon/rgb_u8.rs", "src/neon/plane_u8.rs", "src/cbcr8.rs"]}
{"id": "C145", "title": "RGB and RGBA width changes agree between AArch64 and the portable code", "statement": "A resize of an RGB or RGBA image that only changes its width gives, with the 32-bit NEON handlers, in every sample the value of the portable code or one less, the latter only where the exact weighted sum is half-way between two values.", "quantifier": "every strategy, filter, pair of sizes, picture whose accumulators cannot overflow", "why_tests_cant": "Relates two implementations on all pictures.", "anchors": ["src/neon/rgba_u8.rs", "src/neon/rgb_u8.rs", "src/convolve_naive_f32.rs", "src/rgba_u8.rs"]}
{"id": "C146", "title": "Locality of 8-bit resizes on AArch64", "statement": "An output pixel of an 8-bit resize on AArch64 depends only on the source pixels inside its vertical and horizontal windows.", "quantifier": "every CPU of the architecture, strategy, channel count, filter, pair of sizes, pair of pictures", "why_tests_cant": "Relates two runs for all pictures.", "anchors": ["src/neon"]}
{"id": "C147", "title": "RGBA8 premultiplication on AArch64: colours", "statement": "Premultiplying an RGBA8 image on AArch64 into an image of the same size stays inside both buffers, replaces every colour by c * a / 255 rounded to nearest (the same values as the portable code) and does not touch row padding.", "quantifier": "every pair of images of equal size, any strides and samples", "why_tests_cant": "Blocks of 64, 16 and 1 pixels; every width and sample value.", "anchors": ["src/neon/alpha_u8.rs", "src/alpha_handle_u8.rs", "src/neon/alpha_u8.rs:neon_premultiply_alpha_rgba_impl_row"]}
{"id": "C148", "title": "RGBA8 premultiplication on AArch64 keeps alpha", "statement": "After premultiplying an RGBA8 image on AArch64 every pixel has its source alpha.", "quantifier": "every image", "why_tests_cant": "Depends on the width modulo 16.", "anchors": ["src/neon/alpha_u8.rs", "src/alpha_handle_u8.rs", "src/neon/alpha_u8.rs:neon_premultiply_alpha_rgba_impl_row"]}
{"id": "C149", "title": "RGBA8 unpremultiplication on AArch64", "statement": "Unpremultiplying an RGBA8 image on AArch64 stays inside the buffer, replaces every colour by min(255, 255 c / a) to within 5/4 (0 where alpha is 0, unchanged where it is 255), keeps alpha and row padding.", "quantifier": "every image, also with colours above their alpha", "why_tests_cant": "All sample values, through an 8-bit reciprocal estimate and f32 rounding.", "anchors": ["src/neon/alpha_u8.rs", "src/alpha_handle_u8.rs", "src/neon/alpha_u8.rs:NeonDisassociateAlpha"]}
{"id": "C150", "title": "RGBA8 unpremultiplication agrees between AArch64 and the portable code", "statement": "Unpremultiplying an image whose colours are at most their alpha gives the same picture on AArch64 as with the portable code.", "quantifier": "every such image", "why_tests_cant": "Relates two implementations on all pictures.", "anchors": ["src/neon/alpha_u8.rs", "src/alpha_handle_u8.rs"]}
{"id": "C151", "title": "The alpha check of RGBA8 on AArch64", "statement": "On AArch64 an RGBA8 image counts as needing premultiplication iff two of its pixels differ in alpha, whatever is in the row padding.", "quantifier": "every image", "why_tests_cant": "All widths; 32-bit sums over lanes.", "anchors": ["src/neon/check_alpha.rs:neon_has_non_constant_cap_alpha_rgba8", "src/image_store.rs"]}
{"id": "C152", "title": "The alpha check of RGBA16 on AArch64", "statement": "On AArch64 an RGBA16 image counts as needing premultiplication iff two of its pixels differ in alpha, whatever is in the row padding.", "quantifier": "every image", "why_tests_cant": "All widths; 32-bit sums over lanes.", "anchors": ["src/neon/check_alpha.rs:neon_has_non_constant_cap_alpha_rgba16", "src/image_store.rs"]}
{"id": "C153", "title": "RGBA8 resizes with alpha on AArch64", "statement": "An accepted RGBA8 resize with premultiply_alpha = true on AArch64 returns Ok, stays inside its buffers, keeps row padding, and stores the plain resize of a picture `work` with its colours divided by its alpha; `work` is the source if its alpha is constant, else a copy with colours multiplied by alpha (alpha squared in the last width % 16 columns).", "quantifier": "every strategy, CPU with or without rdm, filter, accepted pair of images whose accumulators cannot overflow", "why_tests_cant": "Composition of three passes over all pictures and sizes.", "anchors": ["src/scaler.rs:Scaler::generic_resize_with_alpha", "src/neon/alpha_u8.rs", "src/alpha_handle_u8.rs"]}
{"id": "C154", "title": "The alpha round trip of RGBA8 on AArch64", "statement": "Premultiplying an RGBA8 image and unpremultiplying the result on AArch64 returns every alpha, every opaque colour exactly, and other colours to within 255 / (2 a) + 5/4 levels.", "quantifier": "every image", "why_tests_cant": "All sample values and widths.", "anchors": ["src/neon/alpha_u8.rs", "src/alpha_handle_u8.rs"]}
{"id": "C155", "title": "RGBA16 premultiplication on AArch64: exact rounding", "statement": "Premultiplying a 16-bit RGBA16 image on AArch64, or a 10/12-bit one on a CPU without half-precision arithmetic, stays inside both buffers, replaces every colour by c * a / max rounded to nearest, keeps every alpha and does not touch row padding.", "quantifier": "every pair of images of equal size, any strides, samples fitting the depth", "why_tests_cant": "All widths, samples and paddings.", "anchors": ["src/neon/alpha_u16.rs", "src/alpha_handle_u16.rs", "src/neon/alpha_u16.rs:neon_premultiply_alpha_rgba_row_u16"]}
{"id": "C156", "title": "RGBA16 premultiplication on AArch64: other depths", "statement": "At every depth from 1 to 15 other than 10 and 12, premultiplying an RGBA16 image on AArch64 makes every colour c * a / max to within 51/100 and keeps every alpha and the row padding.", "quantifier": "every pair of images of equal size, any strides, samples fitting the depth", "why_tests_cant": "All widths and samples through f32 rounding.", "anchors": ["src/neon/alpha_u16.rs", "src/alpha_handle_u16.rs"]}
{"id": "C157", "title": "RGBA16 premultiplication on AArch64 with half-precision arithmetic", "statement": "Premultiplying a 10/12-bit RGBA16 image on an AArch64 CPU with half-precision arithmetic rounds c * a / max to nearest and leaves opaque pixels unchanged.", "quantifier": "every pair of images of equal size, any strides, samples fitting the depth", "why_tests_cant": "All samples through half-precision rounding.", "anchors": ["src/neon/alpha_u16.rs", "src/alpha_handle_u16.rs"]}
{"id": "C158", "title": "RGBA16 unpremultiplication on AArch64", "statement": "Unpremultiplying an RGBA16 image whose colours do not exceed alpha (10/12 bits: without half-precision arithmetic) gives max * c / a to within 51/100 plus a three-millionth, fits the depth, leaves transparent pixels alone, keeps alpha and row padding.", "quantifier": "every depth up to 16, every such image", "why_tests_cant": "All widths and samples through f32 rounding.", "anchors": ["src/neon/alpha_u16.rs", "src/alpha_handle_u16.rs", "src/neon/alpha_u16.rs:neon_unpremultiply_alpha_rgba_row_u16"]}
{"id": "C159", "title": "RGBA16 unpremultiplication on AArch64 saturates", "statement": "Unpremultiplying a pixel whose colour exceeds its alpha on AArch64 gives the maximum of the depth.", "quantifier": "every RGBA16 image fitting its depth", "why_tests_cant": "All colours and alphas.", "anchors": ["src/neon/alpha_u16.rs", "src/alpha_handle_u16.rs"]}
{"id": "C160", "title": "RGBA16 unpremultiplication on AArch64 with half-precision arithmetic", "statement": "Unpremultiplying a 10/12-bit RGBA16 image whose colours do not exceed alpha, on a CPU with half-precision arithmetic, gives max * c / a approximately, in samples that fit the depth, and keeps alpha and row padding.", "quantifier": "every such image", "why_tests_cant": "All samples through half-precision rounding.", "anchors": ["src/neon/alpha_u16.rs", "src/alpha_handle_u16.rs"]}
{"id": "C161", "title": "RGBA16 alpha handling on AArch64 keeps alpha", "statement": "Whatever depth, samples and CPU, premultiplying and unpremultiplying RGBA16 images on AArch64 stays inside the buffers and keeps alpha, shape and row padding.", "quantifier": "every depth, image and CPU", "why_tests_cant": "All widths and strides.", "anchors": ["src/neon/alpha_u16.rs", "src/alpha_handle_u16.rs"]}
{"id": "C162", "title": "RGBA f32 premultiplication on AArch64", "statement": "Premultiplying an RGBA f32 image on AArch64 stays inside both buffers, replaces every colour by the correctly rounded product with alpha and keeps every alpha and the row padding.", "quantifier": "every pair of images of equal size with finite samples", "why_tests_cant": "All widths, strides and values.", "anchors": ["src/neon/alpha_f32.rs", "src/alpha_handle_f32.rs", "src/neon/alpha_f32.rs:neon_premultiply_alpha_rgba_row_f32"]}
{"id": "C163", "title": "RGBA f32 unpremultiplication on AArch64", "statement": "Unpremultiplying an RGBA f32 image on AArch64 gives 0 for transparent pixels, else c / a to within one part in 2^22, and keeps every alpha and the row padding.", "quantifier": "every image with alphas 0 or of magnitude 2^-100 to 2^100", "why_tests_cant": "All widths, strides and values.", "anchors": ["src/neon/alpha_f32.rs", "src/alpha_handle_f32.rs", "src/neon/alpha_f32.rs:neon_unpremultiply_alpha_rgba_f32_row"]}
{"id": "C164", "title": "RGBA f32 alpha handling agrees between AArch64 and SSE4.1", "statement": "RGBA f32 alpha handling makes the same decision to premultiply, and stores the same samples, on AArch64 as on an x86 CPU with SSE4.1 and without AVX2.", "quantifier": "every pair of images of equal size with finite samples", "why_tests_cant": "Relates two implementations on all pictures.", "anchors": ["src/neon/alpha_f32.rs", "src/alpha_handle_f32.rs", "src/sse/alpha_f32.rs"]}
{"id": "C165", "title": "RGBA f32 unpremultiplication on AArch64 does not depend on the column", "statement": "Two pixels with the same samples unpremultiply to the same samples on AArch64.", "quantifier": "every image and pair of pixels", "why_tests_cant": "Depends on the width modulo 4.", "anchors": ["src/neon/alpha_f32.rs", "src/alpha_handle_f32.rs"]}
{"id": "C166", "title": "RGBA f32 resizes on AArch64 stay in bounds", "statement": "On AArch64 a resize of f32 images with four channels, or of any f32 images with the height kept, returns normally, reads nothing outside the buffers and writes only pixels of the destination.", "quantifier": "every accepted pair of images, any strides and filters; samples may be NaN or infinite", "why_tests_cant": "All sizes, strides and filters; an out-of-bounds vector load is not visible in a result.", "anchors": ["src/neon/vertical_f32.rs", "src/neon/plane_f32.rs", "src/neon/rgb_f32.rs", "src/neon/rgba_f32.rs", "src/dispatch_group_f32.rs"]}
{"id": "C167", "title": "f32 resizes of one to three channels on AArch64 stay in bounds", "statement": "On AArch64 a resize of f32 images with one to three channels that changes the height returns normally and reads nothing outside the buffers.", "quantifier": "every accepted pair of images, any strides and filters", "why_tests_cant": "An over-read of a few samples is invisible unless the page after the buffer is unmapped.", "anchors": ["src/neon/vertical_f32.rs", "src/neon/plane_f32.rs", "src/neon/rgb_f32.rs", "src/neon/rgba_f32.rs", "src/dispatch_group_f32.rs", "src/neon/vertical_f32.rs:convolve_vertical_part_neon_4_f32"]}
{"id": "C168", "title": "f32 resizes on AArch64 equal the portable code", "statement": "On AArch64 a resize of finite f32 images with two, three or four channels, or that keeps the width, gives bit for bit the image of the portable code with fused multiply-add.", "quantifier": "every accepted pair of finite images whose vertical pass stays in bounds (no row leaves 5-7 samples modulo 8, or rows are padded up to a multiple of 8, or the height is kept; always so for four channels)", "why_tests_cant": "Relates two implementations on all pictures.", "anchors": ["src/neon/vertical_f32.rs", "src/neon/plane_f32.rs", "src/neon/rgb_f32.rs", "src/neon/rgba_f32.rs", "src/dispatch_group_f32.rs", "src/rgb_f32.rs", "src/floating_point_horizontal.rs"]}
{"id": "C169", "title": "f32 resizes of one to three channels on AArch64 equal those on AVX2 with FMA", "statement": "A resize of f32 images with one to three channels gives the same image on AArch64 as on an x86 CPU with AVX2 and FMA.", "quantifier": "every accepted pair of finite images whose vertical pass stays in bounds (no row leaves 5-7 samples modulo 8, or rows are padded up to a multiple of 8, or the height is kept; always so for four channels); any samples and arithmetic", "why_tests_cant": "Relates two implementations on all pictures.", "anchors": ["src/neon/vertical_f32.rs", "src/neon/plane_f32.rs", "src/neon/rgb_f32.rs", "src/neon/rgba_f32.rs", "src/dispatch_group_f32.rs", "src/sse/plane_f32.rs", "src/avx2/vertical_f32.rs"]}
{"id": "C170", "title": "f32 resizes on AArch64 are accurate", "statement": "On AArch64 every sample of a resize of f32 images with two, three or four channels, or that keeps the width, is within the binary32 error bound of the exact weighted sum over its windows.", "quantifier": "every accepted pair of finite images whose vertical pass stays in bounds (no row leaves 5-7 samples modulo 8, or rows are padded up to a multiple of 8, or the height is kept; always so for four channels)", "why_tests_cant": "Rounding errors of all pictures and filters.", "anchors": ["src/neon/vertical_f32.rs", "src/neon/plane_f32.rs", "src/neon/rgb_f32.rs", "src/neon/rgba_f32.rs", "src/dispatch_group_f32.rs"]}
{"id": "C171", "title": "f32 plane resizes on AArch64 are accurate", "statement": "On AArch64 every sample of a resize of f32 planes that keeps the height is within the binary32 error bound of the exact weighted sum over its window.", "quantifier": "every accepted pair of finite planes of equal height", "why_tests_cant": "Depends on the row's position and the window size.", "anchors": ["src/neon/vertical_f32.rs", "src/neon/plane_f32.rs", "src/neon/rgb_f32.rs", "src/neon/rgba_f32.rs", "src/dispatch_group_f32.rs", "src/neon/plane_f32.rs:convolve_horizontal_plane_neon_row_one"]}
{"id": "C172", "title": "Equal rows stay equal in f32 resizes on AArch64", "statement": "When a resize of f32 images with two, three or four channels keeps the height, equal source rows become equal destination rows on AArch64.", "quantifier": "every accepted pair of images of equal height, every pair of rows, any arithmetic", "why_tests_cant": "Depends on the rows' positions modulo 4 against the height.", "anchors": ["src/neon/vertical_f32.rs", "src/neon/plane_f32.rs", "src/neon/rgb_f32.rs", "src/neon/rgba_f32.rs", "src/dispatch_group_f32.rs"]}
{"id": "C173", "title": "Equal rows stay equal in f32 plane resizes on AArch64", "statement": "When a resize of f32 planes keeps the height, equal source rows become equal destination rows on AArch64.", "quantifier": "every accepted pair of planes of equal height, every pair of rows", "why_tests_cant": "Depends on the rows' positions modulo 4 against the height.", "anchors": ["src/neon/vertical_f32.rs", "src/neon/plane_f32.rs", "src/neon/rgb_f32.rs", "src/neon/rgba_f32.rs", "src/dispatch_group_f32.rs"]}
{"id": "C174", "title": "f32 resizes on AArch64 are local", "statement": "On AArch64 a destination sample depends only on the source samples of its channel inside its windows, not on other samples, other channels or padding.", "quantifier": "every two accepted calls of equal size whose vertical passes stay in bounds, any samples and arithmetic", "why_tests_cant": "Relates pairs of runs; NaNs outside the window must not leak.", "anchors": ["src/neon/vertical_f32.rs", "src/neon/plane_f32.rs", "src/neon/rgb_f32.rs", "src/neon/rgba_f32.rs", "src/dispatch_group_f32.rs"]}
{"id": "C175", "title": "RGBA f32 with premultiplication is resize-then-divide on AArch64", "statement": "On AArch64 resize_rgba_f32 with premultiply_alpha = true returns Ok, keeps row padding, and gives the plain resize of the premultiplied picture (the picture itself if its alpha is constant) with every colour divided by the resized alpha: 0 where that is 0, otherwise within one part in 2^22.", "quantifier": "every accepted RGBA f32 call and finite picture", "why_tests_cant": "The composition covers all sizes, alphas and pictures; vector and trailing columns divide differently.", "anchors": ["src/scaler.rs", "src/neon/alpha_f32.rs", "src/neon/rgba_f32.rs", "src/neon/vertical_f32.rs"]}
{"id": "C176", "title": "The alpha channel of an RGBA f32 resize on AArch64 does not depend on premultiplication", "statement": "On AArch64 resize_rgba_f32 stores the same alpha in every pixel with premultiply_alpha = true and = false.", "quantifier": "every accepted RGBA f32 call", "why_tests_cant": "Needs all pictures and sizes.", "anchors": ["src/scaler.rs", "src/neon/alpha_f32.rs", "src/neon/rgba_f32.rs", "src/neon/vertical_f32.rs"]}
{"id": "C177", "title": "Premultiplication on AArch64 does not change colours of RGBA f32 pictures of constant alpha", "statement": "On AArch64, for a picture whose alpha is the same everywhere, premultiply_alpha = true gives the colours of the plain resize up to rounding.", "quantifier": "every accepted RGBA f32 call and picture of constant alpha", "why_tests_cant": "Depends on the global check for constant alpha; all alphas must be considered.", "anchors": ["src/scaler.rs", "src/neon/alpha_f32.rs", "src/neon/rgba_f32.rs", "src/neon/vertical_f32.rs", "src/alpha_check.rs"]}
{"id": "C178", "title": "No out-of-bounds access in u16 resizes on AArch64", "statement": "On AArch64, with and without half precision, an accepted resize of u16 images of any depth and channel count returns Ok, reads nothing outside the buffers and writes only pixels of the destination.", "quantifier": "every accepted u16 call, depth, samples", "why_tests_cant": "All widths (vector and scalar tails), heights, kernels and strides.", "anchors": ["src/neon/vertical_u16_lb.rs", "src/neon/vertical_u16_lb_f16.rs", "src/neon/vertical_u16.rs", "src/neon/rgba_u16_lb.rs", "src/dispatch_group_u16.rs", "src/handler_provider.rs"]}
{"id": "C179", "title": "u16 results on AArch64 stay in the bit depth", "statement": "On AArch64 every sample a u16 resize writes is at most 2^bit_depth - 1, whatever the source samples.", "quantifier": "every accepted u16 call, depth and samples", "why_tests_cant": "Needs every sample value, also values above the depth.", "anchors": ["src/neon/vertical_u16_lb.rs", "src/neon/vertical_u16_lb_f16.rs", "src/neon/vertical_u16.rs", "src/neon/rgba_u16_lb.rs", "src/dispatch_group_u16.rs", "src/handler_provider.rs"]}
{"id": "C180", "title": "Horizontal u16 resizes on AArch64 are exact fixed point", "statement": "On AArch64, up to 12 bits, a resize that keeps the height gives the weighted sum of each pixel's row and channel rounded to nearest; halves go down in RGBA, up otherwise.", "quantifier": "every accepted call of depth at most 12 that keeps the height", "why_tests_cant": "Tap groups of 8, 4, 2, 1 and groups of four rows; all widths.", "anchors": ["src/neon/vertical_u16_lb.rs", "src/neon/vertical_u16_lb_f16.rs", "src/neon/vertical_u16.rs", "src/neon/rgba_u16_lb.rs", "src/dispatch_group_u16.rs", "src/handler_provider.rs"]}
{"id": "C181", "title": "Horizontal u16 resizes on AArch64 equal the portable code", "statement": "On AArch64, up to 12 bits, a resize that keeps the height gives the picture of the portable code.", "quantifier": "every accepted call of depth at most 12 that keeps the height", "why_tests_cant": "Needs all pictures.", "anchors": ["src/neon/vertical_u16_lb.rs", "src/neon/vertical_u16_lb_f16.rs", "src/neon/vertical_u16.rs", "src/neon/rgba_u16_lb.rs", "src/dispatch_group_u16.rs", "src/handler_provider.rs"]}
{"id": "C182", "title": "Vertical u16 resizes on AArch64 use their own column", "statement": "On AArch64, up to 12 bits, a resize that keeps the width computes each sample from its own column, rounded to nearest.", "quantifier": "every accepted call of depth at most 12 that keeps the width", "why_tests_cant": "Depends on row length modulo 16; all widths.", "anchors": ["src/neon/vertical_u16_lb.rs", "src/neon/vertical_u16_lb_f16.rs", "src/neon/vertical_u16.rs", "src/neon/rgba_u16_lb.rs", "src/dispatch_group_u16.rs", "src/handler_provider.rs"]}
{"id": "C183", "title": "Channels of u16 images do not mix on AArch64", "statement": "On AArch64 every sample of a u16 resize is computed from samples of its own channel only.", "quantifier": "every accepted u16 call of depth at most 12", "why_tests_cant": "All widths, heights and channel counts.", "anchors": ["src/neon/vertical_u16_lb.rs", "src/neon/vertical_u16_lb_f16.rs", "src/neon/vertical_u16.rs", "src/neon/rgba_u16_lb.rs", "src/dispatch_group_u16.rs", "src/handler_provider.rs"]}
{"id": "C184", "title": "Rows of one value stay rows of one value in u16 resizes on AArch64", "statement": "On AArch64, if every source row holds one value, so does every row of a resize that keeps the width - at every depth, with and without half precision.", "quantifier": "every accepted u16 call that keeps the width", "why_tests_cant": "Vector and scalar columns must agree for every width and value.", "anchors": ["src/neon/vertical_u16_lb.rs", "src/neon/vertical_u16_lb_f16.rs", "src/neon/vertical_u16.rs", "src/neon/rgba_u16_lb.rs", "src/dispatch_group_u16.rs", "src/handler_provider.rs"]}
{"id": "C185", "title": "Deep horizontal u16 resizes on AArch64 equal the portable code", "statement": "On AArch64, above 12 bits, a resize that keeps the height gives the same picture as the portable code compiled with fused multiply-add.", "quantifier": "every accepted call of depth above 12 that keeps the height", "why_tests_cant": "Needs all pictures and sizes.", "anchors": ["src/neon/vertical_u16_lb.rs", "src/neon/vertical_u16_lb_f16.rs", "src/neon/vertical_u16.rs", "src/neon/rgba_u16_lb.rs", "src/dispatch_group_u16.rs", "src/handler_provider.rs"]}
{"id": "C186", "title": "Deep vertical u16 resizes on AArch64 are accurate", "statement": "On AArch64, above 12 bits, a resize that keeps the width is within 1/2 plus the binary32 summation error of the exact clamped weighted sum of the column.", "quantifier": "every accepted call of depth above 12 that keeps the width, rows of a multiple of 16, at most 4, or 8 samples (for other rows see C182)", "why_tests_cant": "All windows, weights and samples.", "anchors": ["src/neon/vertical_u16_lb.rs", "src/neon/vertical_u16_lb_f16.rs", "src/neon/vertical_u16.rs", "src/neon/rgba_u16_lb.rs", "src/dispatch_group_u16.rs", "src/handler_provider.rs"]}
{"id": "C187", "title": "Half precision vertical u16 resizes on AArch64 are accurate to binary16", "statement": "On AArch64 with half precision, up to 12 bits, a resize that keeps the width is within 1/2 plus the binary16 summation error of the exact clamped weighted sum of the column.", "quantifier": "every accepted call of depth at most 12 that keeps the width, rows of a multiple of 16, at most 4, or 8 samples, sums that fit binary16", "why_tests_cant": "All windows, weights and samples.", "anchors": ["src/neon/vertical_u16_lb.rs", "src/neon/vertical_u16_lb_f16.rs", "src/neon/vertical_u16.rs", "src/neon/rgba_u16_lb.rs", "src/dispatch_group_u16.rs", "src/handler_provider.rs"]}
{"id": "C188", "title": "Half precision does not change u16 results", "statement": "On AArch64 a u16 resize gives the same picture whether or not the CPU and the workload strategy select half precision.", "quantifier": "every accepted u16 call", "why_tests_cant": "Needs all depths and pictures.", "anchors": ["src/neon/vertical_u16_lb.rs", "src/neon/vertical_u16_lb_f16.rs", "src/neon/vertical_u16.rs", "src/neon/rgba_u16_lb.rs", "src/dispatch_group_u16.rs", "src/handler_provider.rs"]}
{"id": "C189", "title": "Vertical u16 resizes on AArch64 equal the portable code", "statement": "On AArch64, up to 12 bits without half precision, a resize that keeps the width gives the picture of the portable code.", "quantifier": "every accepted call of depth at most 12 that keeps the width", "why_tests_cant": "Needs all pictures.", "anchors": ["src/neon/vertical_u16_lb.rs", "src/neon/vertical_u16_lb_f16.rs", "src/neon/vertical_u16.rs", "src/neon/rgba_u16_lb.rs", "src/dispatch_group_u16.rs", "src/handler_provider.rs"]}
{"id": "C190", "title": "RGBA16 with premultiplication is premultiply, resize, divide on AArch64", "statement": "On AArch64, at any depth, with and without half precision, resize_rgba16 with premultiply_alpha = true returns Ok without leaving a buffer, keeps row padding, and is the plain resize of the source (constant alpha) or of its premultiplied copy (alpha varies), unpremultiplied; alpha is as the plain resize left it.", "quantifier": "every accepted RGBA16 call, depth and picture (alpha check exact up to 32768 pixels per row)", "why_tests_cant": "The composition covers all sizes, alphas and depths.", "anchors": ["src/scaler.rs", "src/neon/alpha_u16.rs", "src/neon/rgba_u16_lb.rs", "src/neon/vertical_u16.rs", "src/neon/vertical_u16_lb.rs", "src/neon/vertical_u16_lb_f16.rs"]}
{"id": "C191", "title": "The alpha channel of an RGBA16 resize on AArch64 does not depend on premultiplication", "statement": "On AArch64 resize_rgba16 stores the same alpha in every pixel with premultiply_alpha = true and = false, at any depth.", "quantifier": "every accepted RGBA16 call", "why_tests_cant": "Needs all pictures and sizes, also rows whose trailing columns read other columns.", "anchors": ["src/scaler.rs", "src/neon/alpha_u16.rs", "src/neon/rgba_u16_lb.rs", "src/neon/vertical_u16.rs", "src/neon/vertical_u16_lb.rs", "src/neon/vertical_u16_lb_f16.rs"]}
{"id": "C192", "title": "Colours of an RGBA16 resize with premultiplication on AArch64 are colour over alpha", "statement": "On AArch64 every colour of an RGBA16 resize with premultiply_alpha = true is the resized premultiplied colour over the resized alpha, within the depth.", "quantifier": "every accepted RGBA16 call", "why_tests_cant": "Needs every colour, alpha and depth.", "anchors": ["src/scaler.rs", "src/neon/alpha_u16.rs", "src/neon/rgba_u16_lb.rs", "src/neon/vertical_u16.rs", "src/neon/vertical_u16_lb.rs", "src/neon/vertical_u16_lb_f16.rs"]}
{"id": "C193", "title": "Packed 10-bit resizing on AArch64 never leaves its buffers and keeps padding", "statement": "On AArch64, with and without the rdm extension and for either workload strategy, resize_ar30 / resize_ra30 return Ok for every accepted call, no read or write leaves a buffer, every pixel gets alpha 3 and the row padding of the destination is kept.", "quantifier": "every accepted resize_ar30 / resize_ra30 call on AArch64, both byte orders; every table the filter gives", "why_tests_cant": "All sizes, strides, window lengths and leftover rows and columns.", "anchors": ["src/resize_ar30.rs", "src/dispatch_group_ar30.rs", "src/neon/ar30.rs", "src/neon/horizontal_ar30.rs", "src/neon/horizontal_ar30_rdm.rs", "src/neon/vertical_ar30.rs", "src/neon/vertical_ar30_rdm.rs"]}
{"id": "C194", "title": "Errors of packed 10-bit resizing on AArch64", "statement": "On AArch64 resize_ar30 / resize_ra30 return Ok exactly for non-zero representable sizes with well laid out buffers; otherwise the documented error and an untouched destination.", "quantifier": "every call", "why_tests_cant": "All sizes and layouts.", "anchors": ["src/resize_ar30.rs", "src/dispatch_group_ar30.rs", "src/neon/ar30.rs", "src/neon/horizontal_ar30.rs", "src/neon/horizontal_ar30_rdm.rs", "src/neon/vertical_ar30.rs", "src/neon/vertical_ar30_rdm.rs"]}
{"id": "C195", "title": "Packed 10-bit column resizing on AArch64 is the portable one up to one unit", "statement": "Without rdm (or with PreferQuality), at equal widths, each component on AArch64 is the fixed-point weighted sum rounded half down, equal to the portable result or one below it.", "quantifier": "every accepted resize_ar30 / resize_ra30 call on AArch64, both byte orders at equal widths", "why_tests_cant": "All rows, windows and colours.", "anchors": ["src/resize_ar30.rs", "src/dispatch_group_ar30.rs", "src/neon/ar30.rs", "src/neon/horizontal_ar30.rs", "src/neon/horizontal_ar30_rdm.rs", "src/neon/vertical_ar30.rs", "src/neon/vertical_ar30_rdm.rs"]}
{"id": "C196", "title": "Packed 10-bit resizing on AArch64 applies the filter separably", "statement": "Without rdm each component is the vertical filter followed by the horizontal filter on the window's pixels.", "quantifier": "every accepted resize_ar30 / resize_ra30 call on AArch64, both byte orders", "why_tests_cant": "All windows and sizes.", "anchors": ["src/resize_ar30.rs", "src/dispatch_group_ar30.rs", "src/neon/ar30.rs", "src/neon/horizontal_ar30.rs", "src/neon/horizontal_ar30_rdm.rs", "src/neon/vertical_ar30.rs", "src/neon/vertical_ar30_rdm.rs"]}
{"id": "C197", "title": "Flat rows keep their colour in packed 10-bit resizing on AArch64", "statement": "Without rdm, at equal heights, a row of one colour is resized to that colour times the window's weight sum, rounded half down: the portable result or one below it, whatever the window length.", "quantifier": "every accepted resize_ar30 / resize_ra30 call on AArch64, both byte orders at equal heights; every row constant", "why_tests_cant": "All windows, colours and sizes.", "anchors": ["src/resize_ar30.rs", "src/dispatch_group_ar30.rs", "src/neon/ar30.rs", "src/neon/horizontal_ar30.rs", "src/neon/horizontal_ar30_rdm.rs", "src/neon/vertical_ar30.rs", "src/neon/vertical_ar30_rdm.rs"]}
{"id": "C198", "title": "Packed 10-bit resizing on AArch64 is local per component", "statement": "On AArch64, with and without rdm, a component of an output pixel depends only on the same component of the source pixels in its two windows, not on padding, other components, the destination or strides.", "quantifier": "every pair of accepted calls of the same sizes", "why_tests_cant": "Quantifies over pairs of pictures.", "anchors": ["src/resize_ar30.rs", "src/dispatch_group_ar30.rs", "src/neon/ar30.rs", "src/neon/horizontal_ar30.rs", "src/neon/horizontal_ar30_rdm.rs", "src/neon/vertical_ar30.rs", "src/neon/vertical_ar30_rdm.rs"]}
{"id": "C199", "title": "Packed 10-bit column resizing with rdm stays within one unit", "statement": "With rdm and PreferSpeed, at equal widths, with windows of up to 64 rows whose scaled sums fit 16 bits, each component is within one unit of the exactly rounded weighted sum.", "quantifier": "every accepted resize_ar30 / resize_ra30 call on AArch64, both byte orders at equal widths with fitting windows", "why_tests_cant": "All windows, rows and colours.", "anchors": ["src/resize_ar30.rs", "src/dispatch_group_ar30.rs", "src/neon/ar30.rs", "src/neon/horizontal_ar30.rs", "src/neon/horizontal_ar30_rdm.rs", "src/neon/vertical_ar30.rs", "src/neon/vertical_ar30_rdm.rs"]}
{"id": "C200", "title": "White stays white in packed 10-bit column resizing with rdm", "statement": "With rdm and PreferSpeed, at equal widths, a white packed 10-bit image stays white.", "quantifier": "every accepted resize_ar30 / resize_ra30 call on AArch64, both byte orders at equal widths", "why_tests_cant": "All filters and heights.", "anchors": ["src/resize_ar30.rs", "src/dispatch_group_ar30.rs", "src/neon/ar30.rs", "src/neon/horizontal_ar30.rs", "src/neon/horizontal_ar30_rdm.rs", "src/neon/vertical_ar30.rs", "src/neon/vertical_ar30_rdm.rs"]}
{"id": "C201", "title": "Packed 10-bit row resizing with rdm stays within one unit", "statement": "With rdm and PreferSpeed, at equal heights, each component is within one unit of the exactly rounded weighted sum.", "quantifier": "every accepted resize_ar30 / resize_ra30 call on AArch64, both byte orders at equal heights", "why_tests_cant": "All windows and colours.", "anchors": ["src/resize_ar30.rs", "src/dispatch_group_ar30.rs", "src/neon/ar30.rs", "src/neon/horizontal_ar30.rs", "src/neon/horizontal_ar30_rdm.rs", "src/neon/vertical_ar30.rs", "src/neon/vertical_ar30_rdm.rs"]}
{"id": "C202", "title": "Equal rows give equal rows in packed 10-bit resizing on AArch64", "statement": "Without rdm, at equal heights, two source rows of equal colours, of the same or of different pictures, at any position, are resized to the same row.", "quantifier": "every pair of accepted calls and rows", "why_tests_cant": "Pairs of rows in pictures of any height, including leftover rows of blocks of four.", "anchors": ["src/resize_ar30.rs", "src/dispatch_group_ar30.rs", "src/neon/ar30.rs", "src/neon/horizontal_ar30.rs", "src/neon/horizontal_ar30_rdm.rs", "src/neon/vertical_ar30.rs", "src/neon/vertical_ar30_rdm.rs"]}
{"id": "C203", "title": "Equal rows give equal rows in packed 10-bit resizing with rdm", "statement": "With rdm and PreferSpeed, at equal heights, two source rows of equal colours are resized to the same row.", "quantifier": "every pair of accepted calls and rows", "why_tests_cant": "Pairs of rows in pictures of any height.", "anchors": ["src/resize_ar30.rs", "src/dispatch_group_ar30.rs", "src/neon/ar30.rs", "src/neon/horizontal_ar30.rs", "src/neon/horizontal_ar30_rdm.rs", "src/neon/vertical_ar30.rs", "src/neon/vertical_ar30_rdm.rs"]}
{"id": "C204", "title": "Threads do not change results on x86", "statement": "On x86_64 with any of the SSE4.1, AVX2 and FMA code paths, resize of 8-bit, 16-bit, f32 and packed 10-bit images returns the same value and writes the same destination under every threading policy and every thread schedule as the sequential code.", "quantifier": "every call, policy, pool and interleaving of the row tasks", "why_tests_cant": "Schedules cannot be enumerated; the row tasks of a pool interleave arbitrarily.", "anchors": ["src/threading_policy.rs", "src/scaler.rs", "src/dispatch_group_u8.rs", "src/dispatch_group_u16.rs", "src/dispatch_group_f32.rs", "src/dispatch_group_ar30.rs", "src/nearest_sampler.rs"]}
{"id": "C205", "title": "Threads do not change results on AArch64", "statement": "On AArch64, with and without rdm and fp16, resize of 8-bit, 16-bit, f32 and packed 10-bit images returns the same value and writes the same destination under every threading policy and every thread schedule as the sequential code.", "quantifier": "every call, policy, pool and interleaving of the row tasks", "why_tests_cant": "Schedules cannot be enumerated.", "anchors": ["src/threading_policy.rs", "src/scaler.rs", "src/dispatch_group_u8.rs", "src/dispatch_group_u16.rs", "src/dispatch_group_f32.rs", "src/dispatch_group_ar30.rs", "src/nearest_sampler.rs"]}
{"id": "C206", "title": "Threads do not change results with alpha on x86", "statement": "On x86_64 a resize of RGBA8, RGBA16 and RGBA f32 images with premultiplication gives the same under every threading policy and thread schedule, including the loops that run on rayon's global pool.", "quantifier": "every call, policy, pool and interleaving of the row tasks", "why_tests_cant": "Schedules cannot be enumerated.", "anchors": ["src/threading_policy.rs", "src/scaler.rs", "src/dispatch_group_u8.rs", "src/dispatch_group_u16.rs", "src/dispatch_group_f32.rs", "src/dispatch_group_ar30.rs", "src/nearest_sampler.rs", "src/sse/alpha_u8.rs", "src/sse/alpha_u16.rs", "src/sse/alpha_f32.rs", "src/avx2/alpha_u8.rs", "src/avx2/alpha_u16.rs", "src/avx2/alpha_f32.rs"]}
{"id": "C207", "title": "Threads do not change results with alpha on AArch64", "statement": "On AArch64 a resize of RGBA8, RGBA16 and RGBA f32 images with premultiplication gives the same under every threading policy and thread schedule.", "quantifier": "every call, policy, pool and interleaving of the row tasks", "why_tests_cant": "Schedules cannot be enumerated.", "anchors": ["src/threading_policy.rs", "src/scaler.rs", "src/dispatch_group_u8.rs", "src/dispatch_group_u16.rs", "src/dispatch_group_f32.rs", "src/dispatch_group_ar30.rs", "src/nearest_sampler.rs", "src/neon/alpha_u8.rs", "src/neon/alpha_u16.rs", "src/neon/alpha_f32.rs"]}
{"id": "C208", "title": "ThreadingPolicy::Single needs no threads", "statement": "Under ThreadingPolicy::Single a resize does not use any thread pool of the process, so it gives the same result even when no thread can be started.", "quantifier": "every call on x86 under Single, whatever the global pool does", "why_tests_cant": "Ranges over all behaviours of the environment.", "anchors": ["src/threading_policy.rs", "src/scaler.rs", "src/dispatch_group_u8.rs", "src/dispatch_group_u16.rs", "src/dispatch_group_f32.rs", "src/dispatch_group_ar30.rs", "src/nearest_sampler.rs", "src/sse/alpha_u8.rs", "src/sse/alpha_u16.rs", "src/sse/alpha_f32.rs", "src/avx2/alpha_u8.rs", "src/avx2/alpha_u16.rs", "src/avx2/alpha_f32.rs"]}
{"id": "C209", "title": "Packed 10-bit copies and Nearest ignore the vector code", "statement": "On x86_64 and AArch64 packed 10-bit resizing between equal sizes and with Nearest is the portable call; in particular an accepted Nearest resize to fewer than four rows reports success and writes nothing there too.", "quantifier": "every call with equal sizes or Nearest", "why_tests_cant": "All sizes, strides and buffers.", "anchors": ["src/resize_ar30.rs", "src/nearest_sampler.rs"]}
{"id": "C210", "title": "Brighter in, brighter out on x86", "statement": "On x86_64, for every CPU and workload strategy, resizing 8-bit images with a filter that has no negative weights is monotone: raising source samples never lowers a destination sample. (With the low precision strategy, when the 16-bit accumulators cannot overflow, and for RGBA alpha windows of more than eight taps when the paired weights fit, as stated in the theorem.)", "quantifier": "every pair of images ordered samplewise, every size, CPU and strategy", "why_tests_cant": "Ranges over all pairs of pictures and all sizes; a test compares a few.", "anchors": ["src/sse", "src/avx2", "src/plane_u8.rs", "src/rgb_u8.rs", "src/rgba_u8.rs", "src/cbcr8.rs", "src/handler_provider.rs", "src/dispatch_group_u8.rs", "src/support.rs"]}
{"id": "C211", "title": "Brighter in, brighter out on AArch64", "statement": "On AArch64, with and without rdm and for every strategy, resizing 8-bit images with a filter that has no negative weights is monotone in the source samples.", "quantifier": "every pair of images ordered samplewise, every size and strategy", "why_tests_cant": "Ranges over all pairs of pictures and all sizes.", "anchors": ["src/neon", "src/plane_u8.rs", "src/rgb_u8.rs", "src/rgba_u8.rs", "src/cbcr8.rs", "src/handler_provider.rs", "src/dispatch_group_u8.rs", "src/support.rs"]}
{"id": "C212", "title": "Portable results stay in the source's range", "statement": "With a support-two averaging filter of at most 124 taps the portable 8-bit resize keeps every channel between the smallest and largest source sample of that channel, except that a change of height may give one below the smallest.", "quantifier": "every image, size, channel and bounds", "why_tests_cant": "All pictures and sizes.", "anchors": ["src/handler_provider.rs", "src/dispatch_group_u8.rs", "src/support.rs"]}
{"id": "C213", "title": "x86 results stay in the source's range", "statement": "On x86_64 with such a filter PreferQuality keeps every channel within the source's range, and PreferSpeed (at most 40 taps) exceeds the largest sample by at most one for each dimension that changes and never goes below the smallest.", "quantifier": "every image, size, channel and bounds", "why_tests_cant": "All pictures and sizes; rounding excess appears on particular weights only.", "anchors": ["src/sse", "src/avx2", "src/plane_u8.rs", "src/rgb_u8.rs", "src/rgba_u8.rs", "src/cbcr8.rs", "src/handler_provider.rs", "src/dispatch_group_u8.rs", "src/support.rs"]}
{"id": "C214", "title": "AArch64 results stay in the source's range", "statement": "On AArch64 with such a filter the 32-bit handlers keep every channel within the source's range; the rdm handlers (at most 40 taps) exceed the largest sample by at most one for each dimension that changes.", "quantifier": "every image, size, channel and bounds", "why_tests_cant": "All pictures and sizes.", "anchors": ["src/neon", "src/plane_u8.rs", "src/rgb_u8.rs", "src/rgba_u8.rs", "src/cbcr8.rs", "src/handler_provider.rs", "src/dispatch_group_u8.rs", "src/support.rs"]}
{"id": "C215", "title": "Accuracy of the portable 8-bit resize", "statement": "For every filter whose table weights lie in [-1, 1], each sample of a portable 8-bit resize is within an explicit bound of the exact separable convolution with the kernel weights: one half (horizontal) or one (vertical) plus n*255/2^15 for n taps per pass, the first pass' error carried through the second.", "quantifier": "every image, size, filter and sample", "why_tests_cant": "Numeric error has to be bounded for all pictures.", "anchors": ["src/handler_provider.rs", "src/dispatch_group_u8.rs", "src/support.rs"]}
{"id": "C216", "title": "Accuracy of the x86 8-bit resize", "statement": "On x86_64 each sample of an 8-bit resize is within an explicit bound of the exact separable convolution: one half plus n*255/2^15 per pass with PreferQuality, one half plus n/128 + n*255/2^15 + 63/64*(A + n/2^15) with PreferSpeed, A the sum of the absolute weights.", "quantifier": "every image, size, filter and sample", "why_tests_cant": "Numeric error has to be bounded for all pictures.", "anchors": ["src/sse", "src/avx2", "src/plane_u8.rs", "src/rgb_u8.rs", "src/rgba_u8.rs", "src/cbcr8.rs", "src/handler_provider.rs", "src/dispatch_group_u8.rs", "src/support.rs"]}
{"id": "C217", "title": "Accuracy of the AArch64 8-bit resize", "statement": "On AArch64 each sample of an 8-bit resize is within an explicit bound of the exact separable convolution, with the pass errors of x86 PreferQuality for the 32-bit handlers and of PreferSpeed for the rdm handlers.", "quantifier": "every image, size, filter and sample", "why_tests_cant": "Numeric error has to be bounded for all pictures.", "anchors": ["src/neon", "src/plane_u8.rs", "src/rgb_u8.rs", "src/rgba_u8.rs", "src/cbcr8.rs", "src/handler_provider.rs", "src/dispatch_group_u8.rs", "src/support.rs"]}
{"id": "C218", "title": "PreferSpeed against PreferQuality", "statement": "On x86_64 with AVX2 and an averaging filter of at most 40 taps the default strategy gives samples at most two below and four above those of PreferQuality, and at most one below and two above when one dimension changes.", "quantifier": "every image, size and sample", "why_tests_cant": "All pictures and sizes; a test compares a few.", "anchors": ["src/sse", "src/avx2", "src/plane_u8.rs", "src/rgb_u8.rs", "src/rgba_u8.rs", "src/cbcr8.rs", "src/handler_provider.rs", "src/dispatch_group_u8.rs", "src/support.rs"]}
{"id": "C219", "title": "x86 against the portable code", "statement": "With an averaging filter of at most 124 taps the AVX2 code with PreferQuality gives samples never below those of the portable code and at most two above; at most one above if only the height changes and equal if only the width changes.", "quantifier": "every image, size and sample", "why_tests_cant": "Needs two builds and all pictures.", "anchors": ["src/sse", "src/avx2", "src/plane_u8.rs", "src/rgb_u8.rs", "src/rgba_u8.rs", "src/cbcr8.rs", "src/handler_provider.rs", "src/dispatch_group_u8.rs", "src/support.rs"]}
{"id": "C220", "title": "x86 against AArch64", "statement": "With an averaging filter of at most 124 taps the AArch64 32-bit handlers and the AVX2 code with PreferQuality agree up to one per dimension that changes, the AArch64 result never being the larger (RGBA; RGB and planes when only the height changes; rows without the three tap tail).", "quantifier": "every image, size and sample", "why_tests_cant": "Needs two machines and all pictures.", "anchors": ["src/sse", "src/avx2", "src/plane_u8.rs", "src/rgb_u8.rs", "src/rgba_u8.rs", "src/cbcr8.rs", "src/handler_provider.rs", "src/dispatch_group_u8.rs", "src/support.rs", "src/neon", "src/plane_u8.rs", "src/rgb_u8.rs", "src/rgba_u8.rs", "src/cbcr8.rs", "src/handler_provider.rs", "src/dispatch_group_u8.rs", "src/support.rs"]}
{"id": "C221", "title": "AVX-512 convolution equals AVX2", "statement": "With the nightly AVX-512 feature every 8-bit resize gives bit for bit what it gives on the same CPU without it, unless the image is RGBA, the width changes and the CPU has AVX-VNNI.", "quantifier": "every CPU, strategy, size, channel count and image the call accepts", "why_tests_cant": "All images and sizes; the AVX-512 code is not run by the project's CI.", "anchors": ["src/avx512", "src/handler_provider.rs", "src/rgba_u8.rs", "src/alpha_handle_u8.rs", "src/image_store.rs"]}
{"id": "C222", "title": "AVX-512 memory safety", "statement": "With the AVX-512 feature every accepted 8-bit resize returns Ok, reads and writes only inside its buffers and keeps row padding, VNNI handlers included.", "quantifier": "every CPU with AVX2, strategy, size and image", "why_tests_cant": "Masked loads and tails at every width.", "anchors": ["src/avx512", "src/handler_provider.rs", "src/rgba_u8.rs", "src/alpha_handle_u8.rs", "src/image_store.rs"]}
{"id": "C223", "title": "VNNI sample values", "statement": "On a CPU with AVX-VNNI an RGBA8 resize that changes the width gives the separable fixed point sums rounded to nearest, except in the last height mod 4 rows, where windows of at most four taps start from another rounding bias.", "quantifier": "every image, size and sample", "why_tests_cant": "All sizes; no test compares the tail rows.", "anchors": ["src/avx512", "src/handler_provider.rs", "src/rgba_u8.rs", "src/alpha_handle_u8.rs", "src/image_store.rs"]}
{"id": "C224", "title": "Equal source rows give equal rows with VNNI", "statement": "If two rows of an RGBA8 image are equal, a resize of the width gives equal rows.", "quantifier": "every image and pair of rows", "why_tests_cant": "Depends on the row number modulo four.", "anchors": ["src/avx512", "src/handler_provider.rs", "src/rgba_u8.rs", "src/alpha_handle_u8.rs", "src/image_store.rs"]}
{"id": "C225", "title": "VNNI against AVX2", "statement": "With PreferQuality a sample of the VNNI code is the sample of the AVX2 code or one less, and equal in whole groups of four rows and for windows of more than four taps.", "quantifier": "every RGBA8 image, size and sample", "why_tests_cant": "Numerical relation over all inputs.", "anchors": ["src/avx512", "src/handler_provider.rs", "src/rgba_u8.rs", "src/alpha_handle_u8.rs", "src/image_store.rs"]}
{"id": "C226", "title": "AVX-512 premultiplication equals AVX2", "statement": "Premultiplying an RGBA8 image with AVX-512 gives exactly the image of the AVX2 code.", "quantifier": "every pair of equally sized images and strides", "why_tests_cant": "All widths: masked tails of 64 bytes.", "anchors": ["src/avx512", "src/handler_provider.rs", "src/rgba_u8.rs", "src/alpha_handle_u8.rs", "src/image_store.rs"]}
{"id": "C227", "title": "AVX-512 unpremultiplication equals AVX2", "statement": "Unpremultiplying an RGBA8 image with AVX-512, with or without VBMI, gives exactly what the AVX2 code gives with the same reciprocal approximations; colours are within 3/5 of 255c/a except colours above 128 with alpha 1.", "quantifier": "every image, stride and reciprocal instruction within its specification", "why_tests_cant": "All pixels and widths; two data rearrangements selected at run time.", "anchors": ["src/avx512", "src/handler_provider.rs", "src/rgba_u8.rs", "src/alpha_handle_u8.rs", "src/image_store.rs"]}
{"id": "C228", "title": "AVX-512 alpha check", "statement": "The check that decides whether premultiplication is needed answers yes iff two pixels of the image differ in alpha.", "quantifier": "every RGBA8 image less than 2^24 pixels wide", "why_tests_cant": "Depends on which column differs, at every width.", "anchors": ["src/avx512", "src/handler_provider.rs", "src/rgba_u8.rs", "src/alpha_handle_u8.rs", "src/image_store.rs"]}
{"id": "C229", "title": "AVX-512 alpha pipeline", "statement": "An RGBA8 resize with premultiplication on AVX-512 is: premultiply if alpha varies, plain resize, divide by alpha; it returns Ok, stays in its buffers, keeps padding and equals the result of the AVX2 alpha handlers.", "quantifier": "every image, size, strategy and CPU", "why_tests_cant": "Composition of every step over all inputs.", "anchors": ["src/avx512", "src/handler_provider.rs", "src/rgba_u8.rs", "src/alpha_handle_u8.rs", "src/image_store.rs"]}
{"id": "C230", "title": "AVX-512 16-bit memory safety", "statement": "With the AVX-512 feature every accepted resize of a u16 image of any depth returns Ok, stays inside its buffers and keeps row padding; avx512vnni does not change the result, and above 12 bits or if only the width changes the result is that of the CPU without AVX-512.", "quantifier": "every CPU, depth, size, channel count and image", "why_tests_cant": "Masked tails at every width; two instruction variants chosen at run time.", "anchors": ["src/avx512/vertical_u16_lb.rs", "src/handler_provider.rs"]}
{"id": "C231", "title": "AVX-512 low bit depth values", "statement": "With AVX-512 a resize of a u16 image of at most 12 bits gives for every width the separable rounded fixed point convolution, each sample from its own column.", "quantifier": "every image, size, channel count and sample", "why_tests_cant": "All widths: the SSE4.1 and AVX2 code get most of them wrong (C77).", "anchors": ["src/avx512/vertical_u16_lb.rs", "src/handler_provider.rs"]}
{"id": "C232", "title": "AVX-512 low bit depth range", "statement": "With AVX-512 samples within a depth of at most 12 bits stay within it.", "quantifier": "every image, size and sample", "why_tests_cant": "Overshoot of any filter on any picture.", "anchors": ["src/avx512/vertical_u16_lb.rs", "src/handler_provider.rs"]}
{"id": "C233", "title": "f16 memory safety on AArch64", "statement": "On AArch64 every accepted resize of an f16 image returns Ok, stays inside its buffers and keeps the destination's size and stride, whatever the CPU's f16 features and the workload strategy.", "quantifier": "every CPU feature set, workload, size, stride, channel count, image and arithmetic", "why_tests_cant": "Unaligned pointer loads of 8, 4, 2 and 1 halves at every width, stride and window; three instruction variants.", "anchors": ["src/f16.rs", "src/neon/rgb_f16.rs", "src/neon/rgba_f16.rs", "src/neon/vertical_f16.rs", "src/neon/rgb_f16_fhm.rs", "src/neon/rgba_f16_fhm.rs", "src/neon/vertical_f16_fhm.rs", "src/neon/rgb_f16_full.rs", "src/neon/rgba_f16_full.rs", "src/neon/vertical_f16_full.rs", "src/neon/convolve_f16.rs", "src/neon/f16_utils.rs", "src/neon/weights.rs"]}
{"id": "C234", "title": "f16 row padding on AArch64", "statement": "A resize of an f16 image on AArch64 writes nothing but pixels.", "quantifier": "every CPU, workload, size, stride, channel count and image", "why_tests_cant": "Strides other than the width, on every path.", "anchors": ["src/f16.rs", "src/neon/rgb_f16.rs", "src/neon/rgba_f16.rs", "src/neon/vertical_f16.rs", "src/neon/rgb_f16_fhm.rs", "src/neon/rgba_f16_fhm.rs", "src/neon/vertical_f16_fhm.rs", "src/neon/rgb_f16_full.rs", "src/neon/rgba_f16_full.rs", "src/neon/vertical_f16_full.rs", "src/neon/convolve_f16.rs", "src/neon/f16_utils.rs", "src/neon/weights.rs"]}
{"id": "C235", "title": "f16 values on AArch64", "statement": "On AArch64 every destination sample of a one-, two- or three-channel f16 image is the separable resize of its channel: sums of fused multiply-adds from left to right in binary32, with table weights (rounded to halves with fhm), or in halves in the fast vertical pass.", "quantifier": "every CPU, workload, filter, size, image and sample", "why_tests_cant": "Every window size and position: steps of 4, 2 and 1 taps, vertical blocks of 48, 32, 16, 8 and a tail.", "anchors": ["src/f16.rs", "src/neon/rgb_f16.rs", "src/neon/rgba_f16.rs", "src/neon/vertical_f16.rs", "src/neon/rgb_f16_fhm.rs", "src/neon/rgba_f16_fhm.rs", "src/neon/vertical_f16_fhm.rs", "src/neon/rgb_f16_full.rs", "src/neon/rgba_f16_full.rs", "src/neon/vertical_f16_full.rs", "src/neon/convolve_f16.rs", "src/neon/f16_utils.rs", "src/neon/weights.rs"]}
{"id": "C236", "title": "f16 RGBA values on AArch64", "statement": "On AArch64 every destination sample of an f16 RGBA image is the separable resize of its channel.", "quantifier": "every CPU, workload, filter, size, image and sample", "why_tests_cant": "The misplaced tap shows only where the fourth pixel of a window step differs from the second.", "anchors": ["src/f16.rs", "src/neon/rgb_f16.rs", "src/neon/rgba_f16.rs", "src/neon/vertical_f16.rs", "src/neon/rgb_f16_fhm.rs", "src/neon/rgba_f16_fhm.rs", "src/neon/vertical_f16_fhm.rs", "src/neon/rgb_f16_full.rs", "src/neon/rgba_f16_full.rs", "src/neon/vertical_f16_full.rs", "src/neon/convolve_f16.rs", "src/neon/f16_utils.rs", "src/neon/weights.rs"]}
{"id": "C237", "title": "f16 RGB values on AArch64 when speed is preferred", "statement": "With fp16 and PreferSpeed every destination sample of an f16 RGB image is the separable resize of its channel.", "quantifier": "every filter, size, image and sample", "why_tests_cant": "Channel mixing is invisible on grey pictures.", "anchors": ["src/f16.rs", "src/neon/rgb_f16.rs", "src/neon/rgba_f16.rs", "src/neon/vertical_f16.rs", "src/neon/rgb_f16_fhm.rs", "src/neon/rgba_f16_fhm.rs", "src/neon/vertical_f16_fhm.rs", "src/neon/rgb_f16_full.rs", "src/neon/rgba_f16_full.rs", "src/neon/vertical_f16_full.rs", "src/neon/convolve_f16.rs", "src/neon/f16_utils.rs", "src/neon/weights.rs"]}
{"id": "C238", "title": "f16 locality on AArch64", "statement": "On AArch64 an f16 destination sample depends only on the source samples of its own channel in its window.", "quantifier": "every CPU, workload, pair of images, size and sample", "why_tests_cant": "Needs pairs of pictures that agree exactly on a window.", "anchors": ["src/f16.rs", "src/neon/rgb_f16.rs", "src/neon/rgba_f16.rs", "src/neon/vertical_f16.rs", "src/neon/rgb_f16_fhm.rs", "src/neon/rgba_f16_fhm.rs", "src/neon/vertical_f16_fhm.rs", "src/neon/rgb_f16_full.rs", "src/neon/rgba_f16_full.rs", "src/neon/vertical_f16_full.rs", "src/neon/convolve_f16.rs", "src/neon/f16_utils.rs", "src/neon/weights.rs"]}
{"id": "C239", "title": "f16 equal rows on AArch64", "statement": "On AArch64 equal source rows of an f16 image give equal destination rows when only the width changes.", "quantifier": "every CPU, workload, image, size and pair of rows", "why_tests_cant": "Rows are handled in groups of four by other code than single rows.", "anchors": ["src/f16.rs", "src/neon/rgb_f16.rs", "src/neon/rgba_f16.rs", "src/neon/vertical_f16.rs", "src/neon/rgb_f16_fhm.rs", "src/neon/rgba_f16_fhm.rs", "src/neon/vertical_f16_fhm.rs", "src/neon/rgb_f16_full.rs", "src/neon/rgba_f16_full.rs", "src/neon/vertical_f16_full.rs", "src/neon/convolve_f16.rs", "src/neon/f16_utils.rs", "src/neon/weights.rs"]}
{"id": "C240", "title": "f16 accuracy on AArch64", "statement": "On AArch64 every f16 destination sample is finite and close to the exact weighted sum: one binary32 rounding per tap and one half rounding per pass, or one half rounding per tap when speed is preferred.", "quantifier": "every CPU, workload, filter, size, image and sample", "why_tests_cant": "Error accumulation over every window size and every picture.", "anchors": ["src/f16.rs", "src/neon/rgb_f16.rs", "src/neon/rgba_f16.rs", "src/neon/vertical_f16.rs", "src/neon/rgb_f16_fhm.rs", "src/neon/rgba_f16_fhm.rs", "src/neon/vertical_f16_fhm.rs", "src/neon/rgb_f16_full.rs", "src/neon/rgba_f16_full.rs", "src/neon/vertical_f16_full.rs", "src/neon/convolve_f16.rs", "src/neon/f16_utils.rs", "src/neon/weights.rs"]}
{"id": "C241", "title": "f16 premultiplication on AArch64", "statement": "On AArch64 premultiplying a finite f16 RGBA image gives every colour as the half nearest to its exact product with alpha, keeps alpha and row padding.", "quantifier": "every CPU feature set, size, stride, image and sample", "why_tests_cant": "All pairs of colour and alpha patterns at every column; products are rounded twice in one variant, once in the other.", "anchors": ["src/alpha_handle_f16.rs", "src/neon/alpha_f16.rs", "src/neon/alpha_f16_full.rs", "src/neon/f16_utils.rs"]}
{"id": "C242", "title": "f16 unpremultiplication on AArch64: frame", "statement": "On AArch64 unpremultiplying any f16 RGBA image returns normally, stays inside the buffer, keeps the bits of every alpha and all padding.", "quantifier": "every CPU feature set, size, stride and image, infinities and NaN included", "why_tests_cant": "Tails through a zero-padded buffer at every width.", "anchors": ["src/alpha_handle_f16.rs", "src/neon/alpha_f16.rs", "src/neon/alpha_f16_full.rs", "src/neon/f16_utils.rs"]}
{"id": "C243", "title": "f16 unpremultiplication on AArch64: value", "statement": "On AArch64 unpremultiplying a finite f16 RGBA image divides every colour by alpha to within half rounding, and gives 0 where alpha is 0.", "quantifier": "every CPU feature set, size, stride, image and sample", "why_tests_cant": "All pairs of patterns; behaviour differs between CPUs.", "anchors": ["src/alpha_handle_f16.rs", "src/neon/alpha_f16.rs", "src/neon/alpha_f16_full.rs", "src/neon/f16_utils.rs"]}
{"id": "C244", "title": "f16 premultiplication is the same everywhere", "statement": "Premultiplying a finite f16 RGBA image gives bit for bit the same image on every AArch64 CPU and on x86 CPUs with F16C or without SSE4.1.", "quantifier": "every pair of CPUs, size, stride and image", "why_tests_cant": "Needs several machines and all pairs of patterns.", "anchors": ["src/alpha_handle_f16.rs", "src/neon/alpha_f16.rs", "src/neon/alpha_f16_full.rs", "src/neon/f16_utils.rs", "src/sse/alpha_f16.rs", "src/avx2/alpha_f16.rs"]}
{"id": "C245", "title": "f16 resize with alpha on AArch64: composition", "statement": "On AArch64 an f16 RGBA resize with premultiply_alpha returns Ok, stays in its buffers, and is premultiplication into a copy, the plain resize, and unpremultiplication.", "quantifier": "every CPU, workload, filter, size, stride and image", "why_tests_cant": "Composition over every accepted call.", "anchors": ["src/alpha_handle_f16.rs", "src/neon/alpha_f16.rs", "src/neon/alpha_f16_full.rs", "src/neon/f16_utils.rs", "src/scaler.rs", "src/f16.rs", "src/image_store.rs"]}
{"id": "C246", "title": "f16 alpha channel on AArch64 does not depend on premultiply_alpha", "statement": "On AArch64 the alpha channel of an f16 RGBA resize is the same with and without premultiply_alpha.", "quantifier": "every CPU, workload, filter, size and finite image", "why_tests_cant": "Relates two calls on every input.", "anchors": ["src/alpha_handle_f16.rs", "src/neon/alpha_f16.rs", "src/neon/alpha_f16_full.rs", "src/neon/f16_utils.rs", "src/scaler.rs", "src/f16.rs", "src/image_store.rs"]}
{"id": "C247", "title": "f16 colours of an AArch64 resize with alpha", "statement": "On AArch64 with premultiply_alpha every colour of an f16 result is the resized premultiplied colour divided by the resized alpha, and 0 where that alpha is 0.", "quantifier": "every CPU, workload, filter, size, finite image and sample", "why_tests_cant": "Rounding of resized alphas to 0 is rare in test pictures.", "anchors": ["src/alpha_handle_f16.rs", "src/neon/alpha_f16.rs", "src/neon/alpha_f16_full.rs", "src/neon/f16_utils.rs", "src/scaler.rs", "src/f16.rs", "src/image_store.rs"]}
{"id": "C248", "title": "Moving the picture moves the result", "statement": "When the ratio of source to output size is P / 2^t, moving an 8-bit source by P m pixels moves the result by exactly 2^t m pixels, wherever the windows stay inside the picture.", "quantifier": "every filter (Area: reductions), shift, size with such a ratio, image, stride and sample; rows and columns; binary32 weights and fixed point", "why_tests_cant": "Relates two calls; weights are computed in floating point at every position.", "anchors": ["src/scaler.rs", "src/filter_weights.rs", "src/sampler.rs"]}
{"id": "C249", "title": "No pixel the kernel weighs is left out", "statement": "The window of an output pixel contains every source pixel to which the filter's kernel, stretched by the reduction ratio, gives a non-zero weight.", "quantifier": "every filter, pair of sizes and output coordinate", "why_tests_cant": "All ratios and coordinates; a dropped tap changes pictures slightly and only at some coordinates.", "anchors": ["src/scaler.rs", "src/filter_weights.rs", "src/sampler.rs"]}
{"id": "C250", "title": "Bilinear enlargement is linear interpolation", "statement": "Enlarging with Bilinear gives at every output pixel the linear interpolation between the two nearest source pixel centres, rounded.", "quantifier": "every enlargement, image and output pixel", "why_tests_cant": "All ratios, positions and pictures.", "anchors": ["src/scaler.rs", "src/filter_weights.rs", "src/sampler.rs"]}
{"id": "C251", "title": "Box and Area reductions average blocks", "statement": "Dividing a size by a whole number n with Box or Area gives the mean of each block of n pixels, as documented for Area (OpenCV's INTER_AREA).", "quantifier": "every n, size, image and output pixel", "why_tests_cant": "All sizes and pictures.", "anchors": ["src/scaler.rs", "src/filter_weights.rs", "src/sampler.rs", "README.md"]}
{"id": "C252", "title": "Mirror images", "statement": "Resizing the mirror image of a picture gives the mirror image of the resized picture.", "quantifier": "every filter, pair of sizes and image, left to right and top to bottom", "why_tests_cant": "Relates two calls on every input and size.", "anchors": ["src/scaler.rs", "src/filter_weights.rs", "src/sampler.rs"]}
{"id": "C253", "title": "C functions on f16 images", "statement": "A C call on f16 samples with aligned pointers and strides of whole samples ends normally, returns 0 or the code of the Rust call's error, leaves the bytes of the Rust result in the destination rows, and leaves the bytes behind the rows, and on an error all bytes, untouched.", "quantifier": "every processor (x86, aarch64), channel count, filter, flags, picture, stride, address and call, accepted or not", "why_tests_cant": "All sizes, strides, memory contents and processors.", "anchors": ["picscale/src/lib.rs", "src/scaler_f16.rs", "src/scaler.rs"]}
{"id": "C254", "title": "C functions on vector processors", "statement": "C calls on 8- and 16-bit samples do on processors with vector instructions what the Rust call does there: same code, same bytes, nothing else written.", "quantifier": "every x86 and aarch64 processor, channel count, depth, filter, flags, picture and stride", "why_tests_cant": "All sizes, strides, memory contents and processors.", "anchors": ["picscale/src/lib.rs", "src/scaler.rs", "src/scaler_u16.rs", "src/handler_provider.rs"]}
{"id": "C255", "title": "Kernels reproduce polynomials", "statement": "The interpolation kernels, with their full radius and in exact arithmetic, add up to one at every position, keep linear gradients, and for Catmull-Rom, Bicubic and Lagrange keep polynomials of higher degree.", "quantifier": "every kernel of the filter table that is not a window or a sinc, every position, every polynomial of the degree", "why_tests_cant": "All rational positions and polynomials.", "anchors": ["src/math/bc_spline.rs", "src/math/cubic.rs", "src/math/quadric.rs", "src/math/spline_n.rs", "src/math/lagrange.rs", "src/math/bilinear.rs", "src/math/bartlett.rs"]}
{"id": "C256", "title": "Interpolating kernels keep the samples", "statement": "At a source pixel's own position an interpolating kernel gives that pixel weight one and every other pixel weight zero.", "quantifier": "every interpolating kernel, every signal, every position", "why_tests_cant": "All signals and positions.", "anchors": ["src/math/bc_spline.rs", "src/math/spline_n.rs", "src/math/lagrange.rs", "src/math/hann.rs", "src/math/bessel_order_one.rs", "src/math/lanczos.rs", "src/sampler.rs"]}
{"id": "C257", "title": "Nearer pixels contribute no less", "statement": "If the centre of one source pixel is no farther from the centre of a destination pixel than that of another, brightening the first brightens the destination pixel no less than brightening the second.", "quantifier": "every filter, pair of sizes, destination pixel and pair of source pixels", "why_tests_cant": "All sizes, positions and values.", "anchors": ["src/scaler.rs", "src/sampler.rs", "src/math/bartlett.rs", "src/math/bessel_order_one.rs", "src/math/lanczos.rs"]}
{"id": "C258", "title": "Splines with a fixed kernel decimate", "statement": "Reducing by an odd whole number with Spline16, Spline36 or Spline64 returns the middle pixel of every block and ignores all others; reducing the height darkens every non-black sample by one.", "quantifier": "every 8-bit picture, channel count and odd ratio", "why_tests_cant": "All sizes, ratios and sample values.", "anchors": ["src/sampler.rs", "src/scaler.rs", "src/math/spline_n.rs"]}
{"id": "C259", "title": "Colours of invisible pixels do not bleed (integer samples)", "statement": "With premultiplication requested, the colours hidden under fully transparent pixels have no effect at all on the result of a resize: two RGBA pictures that differ only in them are resized to the same picture.", "quantifier": "every pair of 8-bit or 16-bit RGBA pictures that differ only in colours of pixels of alpha 0 and have a visible pixel, every filter but Nearest, every size change, every processor without AVX-512", "why_tests_cant": "All pictures, hidden colours, sizes and filters.", "anchors": ["src/scaler.rs", "src/alpha_handle_u8.rs", "src/alpha_handle_u16.rs", "src/alpha_check.rs", "src/avx2/alpha_u8.rs", "src/neon/alpha_u8.rs"]}
{"id": "C260", "title": "Colours of invisible pixels do not bleed (floating point samples)", "statement": "The same for RGBA pictures of f32 and f16 samples with finite colours.", "quantifier": "every pair of f32 or f16 RGBA pictures that differ only in colours of pixels of alpha 0 and have a visible pixel, every filter but Nearest, every size change, x86 and AArch64", "why_tests_cant": "All pictures, hidden colours, sizes and filters.", "anchors": ["src/scaler.rs", "src/alpha_handle_f32.rs", "src/alpha_handle_f16.rs", "src/alpha_check.rs"]}
{"id": "C261", "title": "Colours of invisible pixels do not bleed (AVX-512)", "statement": "The same for 8-bit RGBA pictures on processors with AVX-512.", "quantifier": "every pair of 8-bit RGBA pictures that differ only in colours of pixels of alpha 0", "why_tests_cant": "All pictures, hidden colours, sizes and filters.", "anchors": ["src/avx512/check_alpha.rs", "src/alpha_check.rs", "src/scaler.rs"]}
{"id": "C262", "title": "The Kaiser window is computed in bounded time", "statement": "The series of the Kaiser window ends after at most sixteen terms for every distance; the weight lies between 0 and 1, is positive inside the window, zero outside, and never grows with the distance.", "quantifier": "every distance and every square root function that is monotone and bounded on [0, 1]", "why_tests_cant": "All binary32 distances.", "anchors": ["src/math/kaiser.rs"]}
{"id": "C263", "title": "Cubic filters, fixed splines and enlargements never overflow", "statement": "The absolute quantised weights of a window add up to at most eight times the unit: for the cubic filters (Cubic, MitchellNetravalli, CatmullRom, Hermite, BSpline, Bicubic, Robidoux, RobidouxSharp) with up to 32768 source pixels, for Spline16/36/64, and for every filter when the image is not reduced. No 32-bit accumulator wraps around for 8-, 10- and 12-bit samples, and an accepted 8-bit resize gives exactly the two-pass fixed point result.", "quantifier": "every filter named, every pair of sizes in range, every picture, every scale", "why_tests_cant": "Overflow needs particular sizes and pictures; windows can have tens of thousands of taps of both signs.", "anchors": ["src/scaler.rs", "src/filter_weights.rs", "src/math/bc_spline.rs", "src/math/cubic.rs"]}
{"id": "C264", "title": "Cubic filters are what they are named after", "statement": "At every distance each cubic kernel, as computed in binary32, is within 2^-11 of the member of the Mitchell-Netravali family with the published parameters.", "quantifier": "every distance (of either sign)", "why_tests_cant": "All distances.", "anchors": ["src/math/bc_spline.rs", "src/math/cubic.rs"]}
{"id": "C265", "title": "Cubic filter weights add up to one", "statement": "For every cubic filter and every pair of sizes up to 32768 source pixels, the binary32 weights of a destination coordinate with n taps (of both signs) add up to one up to (5 n + 7) 2^-24: no brightness is lost or gained, however much negative lobes cancel.", "quantifier": "every cubic filter, every pair of sizes, every destination coordinate", "why_tests_cant": "All sizes; cancellation among thousands of signed taps.", "anchors": ["src/scaler.rs", "src/math/bc_spline.rs", "src/math/cubic.rs"]}
{"id": "C266", "title": "Uniform 8-bit images keep their value under cubic filters", "statement": "A picture of one value v, resized with a cubic filter, is a picture of value v (v - 1 is allowed where the height changes).", "quantifier": "every cubic filter, every value, every pair of sizes, every stride and channel count", "why_tests_cant": "All sizes and values.", "anchors": ["src/scaler.rs", "src/filter_weights.rs", "src/math/bc_spline.rs", "src/math/cubic.rs"]}
{"id": "C267", "title": "Uniform f32 pictures keep their value", "statement": "A picture of one finite value v, resized with an averaging filter of support two or a cubic filter, gives samples equal to v up to (120 n + 400) 2^-24 |v| (plus an underflow term of the order of 2^-140), n the size of the largest window: on every x86 CPU, with and without FMA, and on AArch64.", "quantifier": "both filter families, every value, every pair of sizes up to 32768, every channel count, every CPU", "why_tests_cant": "All sizes and values; errors of thousands of roundings accumulate.", "anchors": ["src/scaler.rs", "src/floating_point_horizontal.rs", "src/floating_point_vertical.rs", "src/sse", "src/avx2", "src/neon"]}
{"id": "C268", "title": "Brighter f32 pictures give brighter results", "statement": "With a filter without negative weights, raising samples of a floating point picture never lowers a sample of the result, rounding included: on every x86 CPU (also the portable code), with and without FMA, and on AArch64.", "quantifier": "every pair of pictures related sample by sample, every averaging filter, all sizes and channel counts, every CPU", "why_tests_cant": "Every picture and size; rounding happens at each of thousands of additions in CPU-dependent order.", "anchors": ["src/scaler.rs", "src/floating_point_horizontal.rs", "src/floating_point_vertical.rs", "src/sse", "src/avx2", "src/neon"]}
{"id": "C269", "title": "Negated f32 pictures give negated results", "statement": "Changing the sign of every sample of a floating point picture changes the sign of every sample of the result and nothing else: every filter, every x86 CPU, with and without FMA, and AArch64.", "quantifier": "every picture, filter, size, channel count and CPU", "why_tests_cant": "Every picture; relies on symmetric rounding at every step of every handler.", "anchors": ["src/scaler.rs", "src/sse", "src/avx2", "src/neon"]}
{"id": "C270", "title": "f32 results stay in the range of the source", "statement": "A floating point picture with samples from m to M, resized with an averaging filter of support two, gives samples between m and M up to (120 n + 400) 2^-24 of them (n the size of the largest window); without negative samples in the source there are none in the result, exactly.", "quantifier": "every picture and range, all sizes up to 32768, every channel count and CPU", "why_tests_cant": "Every picture; the error of the weights' sum and of thousands of roundings has to be bounded.", "anchors": ["src/scaler.rs", "src/sse", "src/avx2", "src/neon"]}
{"id": "C271", "title": "Brighter u16 pictures of up to 12 bits give brighter results", "statement": "With a filter without negative weights, raising samples of a u16 picture of at most 12 bits (samples within the depth) never lowers a sample of the result: on every x86 CPU without AVX-512, with AVX-512, and on AArch64 without half precision arithmetic.", "quantifier": "every pair of ordered pictures, every averaging filter, size and channel count", "why_tests_cant": "Every picture; some handlers read other columns than their own, yet the order has to survive.", "anchors": ["src/scaler.rs", "src/sse/vertical_u16_lb.rs", "src/avx2/vertical_u16_lb.rs", "src/neon/vertical_u16.rs", "src/dispatch_group_u16.rs"]}
{"id": "C272", "title": "Brighter u16 pictures of more than 12 bits give brighter results", "statement": "With an averaging filter, raising samples of a u16 picture of 13 to 16 bits never lowers a sample of the result: on AArch64 (any size), and on every x86 CPU for support-two filters and up to 32768 rows and columns, where the conversions to 32-bit integers cannot overflow.", "quantifier": "every pair of ordered pictures of 16-bit samples, every filter as said, every size and channel count", "why_tests_cant": "Every picture; single precision sums in several orders, with taps that meet other pixels, rounded in three ways.", "anchors": ["src/scaler.rs", "src/sse/vertical_u16.rs", "src/sse/rgba_u16.rs", "src/neon/vertical_u16.rs", "src/rgba_u16.rs"]}
{"id": "C273", "title": "How far a resize looks", "statement": "Which source pixels can influence a result pixel, filter by filter: at most half the kernel's width (2, 3, 4 or 6 pixels by filter, times the reduction ratio except for the fixed splines) plus one pixel from its centre; when a direction is not reduced, at most as many pixels of it as the kernel is wide. Pictures that agree there give the same result pixel, whatever is elsewhere.", "quantifier": "every filter, every pair of pictures with sizes up to 32768, every result pixel; 8-bit on portable code, x86 and AArch64, f32 on x86 and AArch64", "why_tests_cant": "Every position and size; the window's ends are computed with rounded single precision arithmetic.", "anchors": ["src/scaler.rs", "src/sampler.rs"]}
{"id": "C274", "title": "u16 results of up to 12 bits stay in the range of the source", "statement": "A u16 picture of at most 12 bits with samples from m to M, resized with an averaging filter of support two with windows of at most n taps, gives samples from m(1-e)^2 - 2 to (M+1)(1+e)^2, e = (130 n + 261)/2^23: for 16 taps at most four levels below m and three above M (m = M: uniform pictures).", "quantifier": "every picture and range, all sizes and channel counts, windows up to 32768 taps, x86 CPUs without and with AVX-512, AArch64 without half precision", "why_tests_cant": "Every picture; the quantised weights do not add up to one and both passes round.", "anchors": ["src/scaler.rs", "src/dispatch_group_u16.rs", "src/sse/vertical_u16_lb.rs", "src/avx2/vertical_u16_lb.rs", "src/neon/vertical_u16_lb.rs"]}
{"id": "C275", "title": "The negative of a picture gives the negative of the result", "statement": "Replacing every sample v by white - v replaces every sample of the result by white minus it, up to 3 levels (8-bit, portable code), 2 levels (8-bit, x86 with PreferQuality, and the 32-bit AArch64 handlers), or H((1+e)^2-1) + 2(1+e) + 1 levels (u16 of up to 12 bits, white H, e = (130 n + 261)/2^23; less than 6 for windows of 16 taps; 1+e less with AVX-512), with an averaging filter of support two.", "quantifier": "every picture, all sizes and channel counts, windows up to 124 taps (8-bit) or any number (u16)", "why_tests_cant": "Every picture and its negative; truncation treats them differently in every pass.", "anchors": ["src/scaler.rs", "src/dispatch_group_u8.rs", "src/dispatch_group_u16.rs", "src/sse", "src/avx2", "src/neon"]}
