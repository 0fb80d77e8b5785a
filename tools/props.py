#!/usr/bin/env python3
# Writes ../properties.jsonl. One source of truth for the property list.
import json, os
P = []
def p(title, statement, quantifier, why, anchors):
    P.append(dict(id="C%02d" % (len(P)+1), title=title, statement=statement, quantifier=quantifier,
                  why_tests_cant=why, anchors=anchors))

p("Image constructors accept exactly the buffers that fit",
  "ImageStore::{new,borrow,from_slice} and ImageStoreMut::{new,borrow,from_slice} return Ok iff the slice length equals width*height*N; on success the image reports exactly the given width, height and elements, with rows packed (stride = width*N); otherwise they return BufferMismatch carrying the expected length, the given dimensions, N and the actual length.",
  "every element type, slice, width, height and channel count",
  "Tests pick a handful of sizes; the claim is an iff over all lengths and dimensions.",
  ["src/image_store.rs: ImageStore::new, borrow, from_slice; ImageStoreMut::new, borrow, from_slice"])
p("A stored image with stride 0 means a packed image",
  "The documentation of the public field `stride` says: if stride is zero then it is considered to be width*N. An image whose stride field is 0 and whose buffer holds width*height*N elements should be treated like the same image with stride width*N by every resize call.",
  "every image with stride field 0, every destination",
  "A universally quantified equivalence between two encodings of the same image.",
  ["src/image_store.rs: ImageStore::stride, ImageStore::validate, ImageStoreMut::validate", "src/scaler.rs: Scaler::generic_resize"])
p("Resize returns the documented error, and only then",
  "resize_* returns Ok iff: destination and source buffers have exactly stride*height elements with stride >= width*N, all four dimensions are non-zero, neither image has width*height*channels beyond usize, and (for u16 images only) the destination bit depth is in 1..=16. When it fails the error is the first of: destination layout, source layout, ZeroImageDimensions, SourceImageIsTooLarge, DestinationImageIsTooLarge, UnsupportedBitDepth.",
  "every pair of images, every filter, every threading policy",
  "Precedence among simultaneous faults and completeness of the Ok condition range over all combinations of inputs.",
  ["src/scaler.rs: Scaler::generic_resize, Scaler::generic_resize_with_alpha", "src/image_store.rs: validate", "src/support.rs: check_image_size_overflow"])
p("A failed resize leaves the destination untouched",
  "Whenever resize_* returns Err, the destination buffer, dimensions, stride and bit depth are exactly what they were before the call.",
  "every pair of images for which an error is returned",
  "Absence of a side effect on every error path.",
  ["src/scaler.rs: Scaler::generic_resize, generic_resize_with_alpha"])
p("The image size check detects exactly the sizes that do not fit usize",
  "The too-large check rejects (width, height, channels) iff the mathematical product width*height*channels is not representable in usize, for every word size.",
  "all width, height, channels below the word modulus, all moduli",
  "Overflow predicates have to be right at all of about 2^192 points.",
  ["src/support.rs: check_image_size_overflow"])
p("Passing the size checks makes every internal buffer size representable",
  "If resize accepts the source and destination sizes, then the size of the intermediate (source width x destination height) image it allocates is also representable in usize.",
  "every accepted pair of image sizes",
  "Tests cannot allocate such images; it is a statement about all size pairs.",
  ["src/scaler.rs: Scaler::generic_resize (target_vertical), forward_resize_with_alpha"])
p("Resizing to the same size copies the picture",
  "If source and destination have equal width and height, a successful resize makes every destination sample equal to the source sample at the same (y, x, channel), for every filter including Nearest and for every pair of row strides.",
  "every image, filter, pair of strides, every pixel and channel",
  "All strides and sizes; the row-by-row copy uses zipped iterators whose truncation is easy to get wrong.",
  ["src/scaler.rs: generic_resize same-size branch", "src/image_store.rs: ImageStore::copied_to_mut"])
p("Row padding of the destination is never written",
  "For a destination whose stride exceeds width*N, a resize call leaves every buffer element that does not belong to a pixel unchanged.",
  "every source, destination with padding, filter, threading policy",
  "Frame condition over every element of every buffer.",
  ["src/dispatch_group_u8.rs", "src/dispatch_group_u16.rs", "src/dispatch_group_f32.rs", "src/image_store.rs: copied_to_mut", "src/nearest_sampler.rs"])
p("Nearest never reads outside the source",
  "For every source and destination size accepted by resize, Nearest computes source coordinates inside the source image (so the call neither panics nor reads unrelated memory).",
  "all source/destination sizes and all destination coordinates; binary32 rounding of every intermediate",
  "Index arithmetic is done in binary32; the extreme sizes cannot be tested.",
  ["src/nearest_sampler.rs: resize_nearest"])
p("Nearest outputs are source pixels, whole",
  "With Nearest, each destination pixel is an exact copy (all channels) of one source pixel, the source row index depends only on the destination row and the source column only on the destination column, and both are monotone in the destination coordinate.",
  "every packed image, every size pair up to 2^24, every pixel",
  "All images and sizes.",
  ["src/nearest_sampler.rs: resize_nearest"])
p("Nearest honours row strides",
  "With Nearest, destination pixel (x,y) is written at y*dst_stride + x*N and taken from a source pixel addressed with the source stride, like every other filter does.",
  "every pair of images with arbitrary strides",
  "Requires all stride combinations.",
  ["src/nearest_sampler.rs: resize_nearest", "src/scaler.rs: generic_resize Nearest branch"])
p("Nearest picks the source pixel under the destination pixel centre",
  "With Nearest, destination column x takes the source column that contains the point (x+1/2)*src_width/dst_width (ties to either side), and likewise for rows.",
  "all sizes and coordinates",
  "All sizes and coordinates.",
  ["src/nearest_sampler.rs: resize_nearest"])
p("Filter windows stay inside the source",
  "For every filter and every in/out size pair with in <= 2^23 the window used for each output coordinate is a non-empty interval of source coordinates inside the image and no longer than the kernel, although it is computed in binary32.",
  "all sizes, output coordinates, filters, binary32 round-to-nearest-even",
  "The window is computed with rounded floating point; the property has to hold for every size.",
  ["src/scaler.rs: Scaler::generate_weights"])
p("Unused kernel slots carry zero weight",
  "Kernel slots beyond the window of an output coordinate are zero, and the number of weights is exactly kernel_size * out_size.",
  "all sizes, filters, output coordinates",
  "SIMD kernels rely on this padding for all sizes.",
  ["src/scaler.rs: Scaler::generate_weights"])
p("Weights of each output coordinate sum to one",
  "For every filter, the weights used for one output coordinate are normalised: they sum to 1 (up to binary32 rounding of the normalisation itself).",
  "all sizes, filters and coordinates",
  "All sizes, including those in which the raw weights cancel.",
  ["src/scaler.rs: Scaler::generate_weights"])
p("Averaging filters have non-negative weights",
  "For the filters whose kernel is non-negative (Bilinear, Box, Area, BSpline, Hermite, Cubic, Quadric, Welch) every weight produced is non-negative.",
  "all sizes, output coordinates and non-negative kernels",
  "All sizes.",
  ["src/scaler.rs: generate_weights", "src/math/*.rs"])
p("Quantised weights are the nearest representable weights",
  "For the 8-bit and <=12-bit paths each weight is replaced by the integer nearest to weight*2^15, saturated to i16; the error is at most half a unit when |weight| < 1 and windows are unchanged.",
  "every weight table",
  "All weights.",
  ["src/filter_weights.rs: FilterWeights::numerical_approximation"])
p("The horizontal pass computes the weighted sum of the window, per pixel and channel",
  "For 8-bit (and <=12-bit u16) images of 1..4 channels, the horizontal pass writes at each (y,x,c) the rounded, clamped value of sum_k q(x,k)*src(y,start(x)+k,c) / 2^15, for every window size (including the specially coded sizes 2,3,4,6), every height (rows are processed in groups of four and a remainder) and every pair of strides.",
  "every image, size, stride pair, weight table, pixel, channel",
  "Unrolled special cases, batching and remainders multiply the cases; tests sample few of them.",
  ["src/fixed_point_horizontal.rs", "src/dispatch_group_u8.rs: convolve_horizontal_dispatch_u8", "src/dispatch_group_u16.rs"])
p("The vertical pass computes the weighted sum of the window, per sample",
  "For 8-bit (and <=12-bit u16) images the vertical pass writes at each (y,x,c) the value floor(sum_k q(y,k)*src(start(y)+k,x,c) / 2^15) clamped to the sample range, for every row width (the code splits rows into blocks of 64, 32, 16, 8 and 1 samples) and every pair of strides.",
  "every image, width, stride pair, weight table, pixel, channel",
  "Block decompositions and tails for every width.",
  ["src/fixed_point_vertical.rs", "src/dispatch_group_u8.rs: convolve_vertical_dispatch_u8"])
p("Both passes round the same way",
  "The vertical pass rounds to nearest like the horizontal pass does (the fixed point sum is rounded, not truncated).",
  "every weighted sum",
  "A statement about all sums.",
  ["src/fixed_point_vertical.rs", "src/fixed_point_horizontal.rs"])
p("A full resize is the separable convolution of the source",
  "resize_* with a convolution filter succeeds and produces, at every pixel, the horizontal weighted sum of the (already rounded and clamped) vertical weighted sums of the source; when only one dimension changes only that pass is applied.",
  "every image pair with valid layouts and sizes up to 2^23, every convolution filter",
  "End-to-end functional correctness over all inputs.",
  ["src/scaler.rs: Scaler::generic_resize", "src/dispatch_group_u8.rs"])
p("Convolution never reads or writes outside the images",
  "For accepted images (dimensions up to 2^23) no slice access of the convolution passes is out of bounds, so the call does not panic.",
  "every accepted image pair and filter",
  "Panic freedom over all inputs.",
  ["src/fixed_point_horizontal.rs", "src/fixed_point_vertical.rs", "src/floating_point_horizontal.rs", "src/floating_point_vertical.rs", "src/dispatch_group_*.rs"])
p("Output samples stay within the bit depth",
  "Every sample written by a convolution pass into a u8 image is in 0..=255 and into a u16 image of depth d is in 0..=2^d-1, whatever the source samples and filter overshoot.",
  "every source content (including out-of-range u16 samples), filter, depth 1..=16",
  "All contents.",
  ["src/saturate_narrow.rs", "src/mixed_storage.rs", "src/fixed_point_*.rs", "src/floating_point_*.rs"])
p("Accumulators do not overflow",
  "With i32 accumulators no partial sum overflows for 8-bit samples as long as the quantised weights of a window have absolute sum at most 2^23, and for 12-bit samples at most 2^19 (16 times the unit weight).",
  "every window content and weight list meeting the bound",
  "Worst-case bound over all contents.",
  ["src/fixed_point_horizontal.rs", "src/fixed_point_vertical.rs"])
p("Channels do not mix",
  "In a convolution resize, each output channel depends only on the same channel of the source: resizing an interleaved image equals resizing each channel plane separately.",
  "every image, filter, size, channel",
  "Non-interference over all images.",
  ["src/fixed_point_horizontal.rs", "src/fixed_point_vertical.rs", "src/color_group.rs"])
p("An output pixel depends only on its source window",
  "Two sources that agree on the rows and columns of the window of output pixel (x,y) give the same output pixel (x,y).",
  "every pair of sources, every pixel",
  "Locality over all pairs of images (hyperproperty).",
  ["src/fixed_point_horizontal.rs", "src/fixed_point_vertical.rs"])
p("Threading does not change the result",
  "For every threading policy and every schedule of the parallel row tasks, the destination after resize is the same as with ThreadingPolicy::Single.",
  "every interleaving of the row tasks",
  "Schedules cannot be enumerated by tests.",
  ["src/dispatch_group_u8.rs", "src/dispatch_group_u16.rs", "src/nearest_sampler.rs", "src/threading_policy.rs"])
p("Thread counts are sane",
  "ThreadingPolicy::thread_count is at least 1, Single gives 1, Fixed(n) gives max(n,1), Adaptive never exceeds the available parallelism and grows with the image area.",
  "all policies, sizes, machine parallelism",
  "All sizes.",
  ["src/threading_policy.rs: ThreadingPolicy::thread_count, get_pool"])
p("Monotonicity of averaging resizes",
  "With a filter whose quantised weights are non-negative, making source samples larger never makes any output sample smaller, and output samples lie between the extremes allowed by the source minimum and maximum.",
  "every pair of pointwise ordered sources",
  "Hyperproperty over pairs of images.",
  ["src/fixed_point_horizontal.rs", "src/fixed_point_vertical.rs"])
p("Flat images stay flat",
  "Resizing an image in which all samples have value v gives samples all equal to v (8-bit, any convolution filter).",
  "every v, filter, size",
  "All sizes and filters.",
  ["src/scaler.rs: generate_weights", "src/filter_weights.rs", "src/fixed_point_vertical.rs"])
p("Division by the channel maximum rounds to nearest",
  "The integer tricks used to divide products by 255, 1023, 4095 and 65535 return the exactly rounded quotient for every product of two samples of that depth.",
  "all products of two in-range samples",
  "65536 to 2^32 points each.",
  ["src/alpha_handle_u8.rs: div_by_255", "src/alpha_handle_u16.rs: div_by_1023, div_by_4095, div_by_65535"])
p("Premultiplying 8-bit pixels scales colours and keeps alpha",
  "Premultiplication of an RGBA8 image replaces each colour c of a pixel with alpha a by round(c*a/255) and leaves alpha unchanged, for every pixel, stride and size.",
  "every RGBA8 image",
  "All images.",
  ["src/alpha_handle_u8.rs: premultiply_alpha_rgba_row_impl, premultiply_alpha_rgba_impl"])
p("Unpremultiplying 8-bit pixels inverts premultiplication",
  "For a premultiplied pixel (colour p <= alpha a) unpremultiplication yields round(255*p/a) (0 when a = 0), alpha unchanged; out-of-range colours saturate.",
  "every colour/alpha pair, every image",
  "A 65536-entry table built at compile time with overlapping indices.",
  ["src/alpha_handle_u8.rs: UNPREMULTIPLICATION_TABLE, unpremultiply_alpha_rgba_row_impl"])
p("Premultiply/unpremultiply round trip is accurate",
  "Premultiplying then unpremultiplying a colour c with alpha a > 0 returns a colour within 128/a + 1 of c, and exactly c when a = 255.",
  "all colours and alphas",
  "All 65280 pairs and the general bound.",
  ["src/alpha_handle_u8.rs"])
p("16-bit premultiply/unpremultiply keep alpha",
  "For RGBA16 images of depth 1..=16, premultiplication scales colours by a/max and unpremultiplication divides by it; both leave alpha unchanged.",
  "every RGBA16 image and depth",
  "All images.",
  ["src/alpha_handle_u16.rs"])
p("Float premultiplication is invertible",
  "For RGBA f32 images premultiplication multiplies colours by alpha and keeps alpha; unpremultiplication divides by alpha (0 if alpha is 0) and keeps alpha; in exact arithmetic they are inverse where alpha is non-zero.",
  "every RGBA f32 image",
  "All images.",
  ["src/alpha_handle_f32.rs"])
p("The alpha check detects exactly varying alpha",
  "The alpha check reports that premultiplication is needed iff two pixels of the image have different alpha (padding is ignored).",
  "every RGBA8/RGBA16/RGBA f32 image",
  "All images; accumulations in fixed width integers.",
  ["src/alpha_check.rs", "src/image_store.rs: is_alpha_premultiplication_needed"])
p("premultiply_alpha=true on a constant-alpha image behaves like premultiply_alpha=false",
  "If all source pixels share the same alpha then resize_rgba(.., true) and resize_rgba(.., false) give the same colours.",
  "every RGBA8 image with constant alpha",
  "Hyperproperty over both modes for all images.",
  ["src/scaler.rs: forward_resize_with_alpha, forward_resize_vertical_with_alpha, forward_resize_horizontal_with_alpha"])
p("AR30 packing round-trips",
  "For both AR30 layouts (AR30, RA30) and both byte orders, unpacking a packed pixel returns the 10-bit components; packing an unpacked opaque pixel returns the same 32 bits.",
  "all 10-bit triples and all 32-bit words",
  "2^30 pixels x layouts x orders.",
  ["src/ar30.rs: Rgb30::pack_w_a, unpack"])
p("AR30 rows are filtered the same whether processed alone or in groups of four",
  "The horizontal AR30 pass gives each row the same result whether it is processed in a group of four rows or in the single-row remainder.",
  "every row, weight table",
  "All window sizes.",
  ["src/fixed_point_horizontal_ar30.rs", "src/dispatch_group_ar30.rs"])
p("AR30 resize honours strides and filters",
  "resize_ar30 writes destination rows at the destination stride for every combination of changed dimensions, and with Nearest each output pixel is a source pixel.",
  "every pair of strides and sizes",
  "All strides and sizes.",
  ["src/resize_ar30.rs: resize_ar30_impl"])
p("Error codes identify errors",
  "PicScaleError::code is non-zero and different errors of different kinds have different codes.",
  "all error values",
  "Exhaustive over kinds and payloads.",
  ["src/pic_scale_error.rs: PicScaleError::code"])
p("Numeric filter ids are total and cover every filter",
  "ResamplingFunction::from(u32) is defined for every u32, ids 0..=48 name 49 pairwise different filters covering every variant, and any other id means Bilinear.",
  "all u32",
  "2^32 ids.",
  ["src/sampler.rs: From<u32> for ResamplingFunction"])
p("Copies of an image are images of the same picture",
  "ImageStore::copied, ImageStoreMut::copied and to_immutable return an image with the same samples at every (y,x,channel) for every stride.",
  "every image and stride",
  "All strides.",
  ["src/image_store.rs: copied, to_immutable"])
p("Every high-depth float pass equals the rounded weighted sum in a fixed order",
  "For f32 images and u16 images deeper than 12 bits each pass writes the fused/unfused left-to-right weighted sum of the window (u16: rounded up, clamped), identically for every window size, row batching, block decomposition and stride.",
  "every image, size, stride pair, weight table, any multiply-add primitive",
  "Floating point addition is not associative, so each unrolled variant must keep the order for all inputs.",
  ["src/floating_point_horizontal.rs", "src/floating_point_vertical.rs", "src/dispatch_group_f32.rs", "src/mixed_storage.rs"])
p("Resizing with premultiplication is premultiply, resize, unpremultiply",
  "For an accepted RGBA8 resize with premultiply_alpha = true whose source has at least two different alphas, every output pixel is: the four channels of the premultiplied picture resized independently, then each colour divided by the resized alpha (0 if that is 0); the output alpha is the resized alpha of the premultiplied picture; padding is untouched.",
  "every accepted RGBA8 resize, every filter, stride and size",
  "Composition of four loops over all images.",
  ["src/scaler.rs: forward_resize_with_alpha and variants", "src/image_store.rs: AssociateAlpha, UnassociateAlpha"])
p("Opaque pixels survive alpha handling",
  "Premultiplying or unpremultiplying a pixel whose alpha is the maximum of its depth leaves the pixel unchanged, for 8-bit pixels and for every depth 1..=16 of 16-bit pixels.",
  "every opaque pixel and depth",
  "The 16-bit code goes through binary32 reciprocals; 2^48 pixels per depth.",
  ["src/alpha_handle_u8.rs", "src/alpha_handle_u16.rs"])
p("One pass stays close to the exact weighted sum",
  "For tables produced by the crate, an output sample of one pass differs from the exact (rational) weighted sum of the window clamped to the sample range by at most a stated bound: fixed point horizontal 1/2 + n*max/2^15, vertical between -(1 + n*max/2^15) and n*max/2^15; 16-bit float passes between -E and 1 + E with an explicit E that is below 1 for windows up to 60 taps.",
  "every accepted pass, image, table, stride and window size",
  "Needs an error bound over all pictures and all weights.",
  ["src/fixed_point_horizontal.rs", "src/fixed_point_vertical.rs", "src/floating_point_horizontal.rs", "src/floating_point_vertical.rs", "src/filter_weights.rs: numerical_approximation"])
p("resize_ar30 is a separable resize of three 10-bit channels",
  "For packed 10-bit images (both layouts, both byte orders) an accepted convolution resize writes, for every destination pixel, each of the three components as the horizontal weighted sum of vertical weighted sums of the same component of the source (fixed point, rounded, clamped to 1023), full alpha, and leaves row padding alone.",
  "every accepted packed resize, layout, byte order, machine endianness, filter, size and stride",
  "All pictures, sizes, window sizes and strides.",
  ["src/resize_ar30.rs: resize_ar30_impl", "src/fixed_point_horizontal_ar30.rs", "src/fixed_point_vertical_ar30.rs", "src/dispatch_group_ar30.rs"])
p("resize_ar30 reports errors and then leaves the destination alone",
  "resize_ar30 returns Ok exactly for non-zero, representable sizes with buffers of stride*height bytes and strides of at least 4*width; otherwise the error of the first failed check is returned and no destination byte changes.",
  "every pair of buffers, strides and sizes",
  "All combinations of sizes and strides.",
  ["src/resize_ar30.rs: resize_ar30_impl", "src/support.rs: check_image_size_overflow"])
p("Parallel row loops finish, do not deadlock and have no data race",
  "On every schedule the parallel loops over rows end after finitely many steps, as long as a row is unfinished some task can go on, different rows never touch the same element, and each step changes at most one element of the running task's own rows.",
  "every interleaving of the row tasks, every closure and buffer",
  "Schedules cannot be enumerated by tests.",
  ["src/dispatch_group_u8.rs", "src/dispatch_group_u16.rs", "src/dispatch_group_f32.rs", "src/dispatch_group_ar30.rs", "src/nearest_sampler.rs", "src/alpha_handle_u8.rs"])
p("x86 vector handlers stay inside the buffers",
  "On x86, whatever SIMD and scalar handlers the CPU and the workload strategy select, an accepted 8-bit convolution resize returns Ok without reading or writing outside the source, weight and destination buffers, and leaves row padding alone.",
  "every accepted 8-bit resize with 1 to 4 channels, every CPU, strategy, filter, stride, size and sample values, also when accumulators overflow",
  "Unchecked vector loads and stores of 8 to 64 bytes at every tail length of every row and window.",
  ["src/sse/*_u8.rs", "src/avx2/*_u8.rs", "src/dispatch_group_u8.rs", "src/plane_u8.rs", "src/cbcr8.rs", "src/rgb_u8.rs", "src/rgba_u8.rs"])
p("PreferQuality vector handlers round the weighted sum to nearest",
  "With WorkloadStrategy::PreferQuality each pass of an x86 8-bit resize writes the fixed point weighted sum of the window rounded to nearest and clamped to 0..=255.",
  "every accepted resize, CPU, filter, size, stride and picture",
  "All pictures, window sizes and block decompositions.",
  ["src/sse/vertical_u8.rs", "src/avx2/vertical_u8.rs", "src/sse/rgba_u8.rs", "src/avx2/rgba_u8.rs", "src/sse/rgb_u8.rs", "src/sse/plane_u8.rs", "src/avx2/plane_u8.rs", "src/sse/cbcr8.rs"])
p("PreferSpeed passes have a known formula and stay within a stated error",
  "With WorkloadStrategy::PreferSpeed every pass of an x86 8-bit resize writes the same low precision sum of the window (6 fractional bits per tap) and differs from the exact weighted sum by at most a stated bound; black stays black and a flat picture keeps its value.",
  "every accepted resize, filter, size, stride and picture",
  "All pictures and weights; 16-bit accumulators may wrap.",
  ["src/sse/vertical_u8_lp.rs", "src/avx2/vertical_u8_lp.rs", "src/avx2/rgba_u8_lb.rs", "src/handler_provider.rs"])
p("x86 handlers filter all channels alike",
  "If two channels of the source are equal, the same channels of the result are equal, with every vector handler.",
  "every accepted resize, CPU, strategy, filter, size and pair of channels",
  "All pictures and window sizes.",
  ["src/avx2/rgba_u8_lb.rs", "src/avx2/rgba_u8.rs", "src/sse/rgba_u8.rs", "src/sse/rgb_u8.rs", "src/avx2/rgb_u8.rs"])
p("The result does not depend on the CPU",
  "Two x86 CPUs with different instruction sets give the same picture for the same call.",
  "every pair of CPUs and every accepted resize",
  "All pictures for all pairs of handler implementations.",
  ["src/rgba_u8.rs", "src/rgb_u8.rs", "src/plane_u8.rs", "src/cbcr8.rs", "src/fixed_point_vertical.rs", "src/sse/vertical_u8.rs", "src/avx2/vertical_u8.rs"])
p("Vector handlers run only on CPUs that have the instructions",
  "A resize never executes an AVX2 handler on a CPU without AVX2, nor an SSE4.1 handler without SSE4.1.",
  "every CPU, strategy, channel count and size",
  "Depends on CPU models one does not test on.",
  ["src/rgba_u8.rs: dispatcher", "src/dispatch_group_u8.rs", "src/plane_u8.rs", "src/cbcr8.rs", "src/rgb_u8.rs"])
p("With vector handlers an output pixel depends only on its window",
  "Changing source pixels outside the windows of an output pixel does not change that pixel, with every x86 handler.",
  "every accepted resize, CPU, strategy, filter, size, and pair of pictures",
  "Non-interference over all pairs of pictures.",
  ["src/avx2/rgb_u8.rs", "src/sse/rgb_u8.rs", "src/avx2/rgba_u8.rs", "src/sse/rgba_u8.rs", "src/sse/cbcr8.rs", "src/sse/plane_u8.rs"])
p("The C entry points do what the Rust call does",
  "A call of a pic_scale_resize_* C function whose pointers are aligned for the sample type and whose strides are whole numbers of samples returns 0 exactly when the Rust resize succeeds and the code of the Rust error otherwise; the destination bytes are those of the Rust result, bytes behind the rows are untouched, on an error no byte changes, and the multithreading flag plays no role.",
  "every C call with aligned pointers: all sizes, strides, pictures, filters, flags, bit depths and thread schedules",
  "All memory contents, sizes and schedules.",
  ["picscale/src/lib.rs", "src/scaler.rs: Scaler::resize"])
p("Alignment of C pointers does not matter",
  "A C caller may pass pointers and byte strides that are not multiples of the sample size; the pictures are read and written row by row at the given byte strides.",
  "every address and stride",
  "All addresses and strides; out of bounds slices may go unnoticed in a test.",
  ["picscale/src/lib.rs: pic_scale_scale_generic"])
p("Vector premultiplication of RGBA8",
  "On an x86 CPU with SSE4.1 or AVX2, premultiplying an RGBA8 image succeeds without touching memory outside the images or row padding, and replaces every colour c by c*a/255 to within 43/85 of a level: the full colour for an opaque pixel, 0 for a transparent one.",
  "every RGBA8 image, any size, stride and samples",
  "All pictures and widths, with every split into vector chunks and remainder.",
  ["src/sse/alpha_u8.rs", "src/avx2/alpha_u8.rs", "src/alpha_handle_u8.rs"])
p("Vector unpremultiplication of RGBA8",
  "On an x86 CPU with SSE4.1 or AVX2, unpremultiplying an RGBA8 image replaces every colour c by min(255, 255 c/a) to within 3/5 of a level (0 if a = 0, c if a = 255), keeps alpha and row padding, whatever the reciprocal approximation instruction returns within its documented accuracy.",
  "every RGBA8 image, and every reciprocal approximation with relative error up to 1.5*2^-12",
  "All pictures and all CPUs: the reciprocal instruction is implemented differently by each vendor.",
  ["src/sse/alpha_u8.rs", "src/avx2/alpha_u8.rs"])
p("RGBA8 resize with alpha on x86",
  "On x86, an RGBA8 resize with premultiply_alpha = true returns Ok and gives the plain resize of the premultiplied picture with its colours divided by its alpha; for a picture of constant alpha it gives what the plain resize gives.",
  "every accepted RGBA8 resize, CPU and strategy",
  "All pictures, sizes, filters and CPUs.",
  ["src/scaler.rs: generic_resize_with_alpha", "src/alpha_handle_u8.rs", "src/alpha_check.rs", "src/sse/alpha_u8.rs", "src/avx2/alpha_u8.rs"])
p("Vector alpha checks are exact",
  "On x86 the check that decides whether premultiplication is needed answers yes iff two pixels have different alpha, for RGBA8 and RGBA16.",
  "every image of every size",
  "All pictures; accumulators wrap for very wide rows only.",
  ["src/sse/check_alpha.rs", "src/avx2/check_alpha.rs", "src/alpha_check.rs"])
p("Premultiplying and unpremultiplying gives the picture back",
  "On x86, premultiplying an RGBA8 picture and unpremultiplying the result gives every alpha back exactly and every colour to within 129/a + 3/5 levels (opaque pixels exactly).",
  "every RGBA8 picture",
  "All pictures, all reciprocal approximations.",
  ["src/sse/alpha_u8.rs", "src/avx2/alpha_u8.rs"])
p("Premultiplication keeps alpha",
  "Premultiplying an RGBA8 picture on x86 leaves the alpha channel as it is.",
  "every RGBA8 picture and CPU",
  "All pictures and CPUs.",
  ["src/sse/alpha_u8.rs", "src/avx2/alpha_u8.rs", "src/alpha_handle_u8.rs"])
p("Vector premultiplication of 10-bit and 12-bit RGBA16",
  "On an x86 CPU with SSE4.1 or AVX2, premultiplying a 10-bit or 12-bit RGBA16 image replaces every colour c by c*a/max rounded to nearest exactly, keeps every alpha and never touches row padding.",
  "every RGBA16 image of depth 10 or 12, CPU with and without FMA",
  "All pictures: every pair of colour and alpha in every lane and in the remainder chunk.",
  ["src/sse/alpha_u16.rs", "src/avx2/alpha_u16.rs", "src/alpha_handle_u16.rs"])
p("Vector premultiplication of 16-bit RGBA16",
  "On an x86 CPU with SSE4.1 or AVX2, premultiplying a 16-bit RGBA16 image replaces every colour c by c*a/65535 rounded to nearest.",
  "every 16-bit RGBA16 image",
  "All pictures.",
  ["src/sse/alpha_u16.rs", "src/avx2/alpha_u16.rs"])
p("Vector premultiplication of RGBA16 at other depths",
  "On an x86 CPU with SSE4.1 or AVX2, premultiplying an RGBA16 image of any other depth below 16 gives c*a/max to within 0.51 (so opaque pixels stay, transparent ones become 0 and nothing exceeds the depth) and keeps alpha.",
  "every RGBA16 image and depth",
  "All pictures and depths; binary32 rounding.",
  ["src/sse/alpha_u16.rs", "src/avx2/alpha_u16.rs"])
p("RGBA16 alpha is kept by the vector handlers",
  "On x86 with SSE4.1 or AVX2, at every depth, premultiplication and unpremultiplication of RGBA16 images keep the alpha channel, the image shape and row padding, and never leave a buffer.",
  "every RGBA16 image, depth and CPU",
  "All pictures, all widths (remainder chunks), all depths.",
  ["src/sse/alpha_u16.rs", "src/avx2/alpha_u16.rs", "src/alpha_handle_u16.rs"])
p("Vector unpremultiplication of RGBA16",
  "On x86 with SSE4.1 or AVX2, unpremultiplying a premultiplied RGBA16 image gives max*c/a to within 1.01 + 1/2048 of the value, and leaves transparent pixels alone.",
  "every premultiplied RGBA16 image and depth, every reciprocal approximation within its documented accuracy",
  "All pictures and CPUs.",
  ["src/sse/alpha_u16.rs", "src/avx2/alpha_u16.rs"])
p("Unpremultiplied RGBA16 samples fit the depth",
  "On x86, unpremultiplying a premultiplied RGBA16 image of depth d gives samples of at most 2^d - 1.",
  "every premultiplied RGBA16 image and depth",
  "All pictures and CPUs.",
  ["src/sse/alpha_u16.rs", "src/avx2/alpha_u16.rs"])
p("Float premultiplication on x86",
  "On every x86 CPU, premultiplying an RGBA f32 image replaces every colour by the correctly rounded binary32 product with alpha, keeps alpha exactly and never touches row padding, for every width.",
  "every RGBA f32 image (finite samples) and CPU",
  "All pictures and widths: vector chunks and scalar remainder.",
  ["src/sse/alpha_f32.rs", "src/avx2/alpha_f32.rs", "src/alpha_handle_f32.rs"])
p("Float unpremultiplication on x86",
  "On every x86 CPU, unpremultiplying an RGBA f32 image gives c/a to one part in 2^22 (0 for transparent pixels), keeps alpha exactly and never touches row padding.",
  "every RGBA f32 image with alphas 0 or of magnitude 2^-100 to 2^100, every CPU",
  "All pictures; binary32 rounding errors.",
  ["src/sse/alpha_f32.rs", "src/avx2/alpha_f32.rs", "src/alpha_handle_f32.rs"])
p("Equal float pixels unpremultiply equally",
  "Two equal pixels of an RGBA f32 image have equal unpremultiplied values whatever their columns.",
  "every RGBA f32 image, pair of pixels and CPU",
  "All pictures and widths.",
  ["src/sse/alpha_f32.rs", "src/avx2/alpha_f32.rs", "src/alpha_handle_f32.rs"])
p("u16 resizes stay inside the buffers on x86",
  "On every x86 CPU (with or without SSE4.1, AVX2, FMA), an accepted resize of a u16 image returns normally, reads nothing outside its buffers and writes only pixels of the destination, for every depth, filter, size and sample values.",
  "every accepted u16 call with 1 to 4 channels, every CPU",
  "The unsafe vector code reads raw pointers: every width, window size and tail must be covered.",
  ["src/sse/vertical_u16_lb.rs", "src/avx2/vertical_u16_lb.rs", "src/sse/rgba_u16_lb.rs", "src/avx2/rgba_u16_lb.rs", "src/sse/vertical_u16.rs", "src/sse/rgba_u16.rs", "src/handler_provider.rs"])
p("u16 vertical pass uses its own column",
  "On x86 with SSE4.1 or AVX2, a resize of a u16 image of up to 12 bits that keeps the width computes every sample as the rounded and clamped weighted sum of its own column.",
  "every accepted call, width, CPU with vector instructions and in-range picture",
  "Wrong columns appear only for some widths (tails of the vector loop).",
  ["src/sse/vertical_u16_lb.rs", "src/avx2/vertical_u16_lb.rs"])
p("u16 horizontal pass does not depend on the CPU",
  "A resize of a u16 image of up to 12 bits that keeps the height gives the same picture on every x86 CPU: each sample is the weighted sum of its row and channel, rounded to nearest and clamped to the depth.",
  "every accepted call and every CPU",
  "All window sizes (groups of 8, 4, 2, 1 taps), rows (groups of four) and CPUs.",
  ["src/sse/rgba_u16_lb.rs", "src/avx2/rgba_u16_lb.rs", "src/fixed_point_horizontal.rs"])
p("u16 samples of up to 12 bits stay within the depth on x86",
  "On every x86 CPU, resizing a picture whose samples fit its depth (up to 12 bits) gives samples that fit the depth.",
  "every accepted call and CPU",
  "All pictures, kernels with negative lobes, all loop tails.",
  ["src/sse/vertical_u16_lb.rs", "src/avx2/vertical_u16_lb.rs", "src/sse/rgba_u16_lb.rs", "src/avx2/rgba_u16_lb.rs"])
p("u16 samples above 12 bits stay within the depth on x86",
  "On every x86 CPU, a resize into an image of 13 to 16 bits writes only samples that fit the depth, whatever the source samples are.",
  "every accepted call, CPU and picture",
  "All pictures and kernels.",
  ["src/sse/vertical_u16.rs", "src/sse/rgba_u16.rs", "src/mixed_storage.rs"])
p("Equal rows stay equal above 12 bits on x86",
  "A resize of a 13 to 16-bit image that keeps the height treats all rows alike: the value of a sample is the same function of its source row wherever the row is.",
  "every accepted call, row and CPU",
  "Rows are processed in groups of four and singly by different code; heights and window sizes are unbounded.",
  ["src/sse/rgba_u16.rs", "src/dispatch_group_u16.rs"])
p("u16 vertical results do not depend on the CPU",
  "A resize of a u16 image of up to 12 bits that keeps the width gives the same picture on every x86 CPU.",
  "every accepted call and pair of CPUs",
  "All pictures, widths and CPUs.",
  ["src/sse/vertical_u16_lb.rs", "src/avx2/vertical_u16_lb.rs", "src/fixed_point_vertical.rs"])
p("Flat rows stay flat up to 12 bits on x86",
  "If every row of a u16 image of up to 12 bits holds one sample value, so does every row of a resize that keeps the width.",
  "every accepted call, CPU and such picture",
  "All widths: vector groups and scalar tails must agree.",
  ["src/sse/vertical_u16_lb.rs", "src/avx2/vertical_u16_lb.rs"])
p("u16 channels do not mix on x86",
  "On x86, a resize of a u16 image of up to 12 bits computes every sample from samples of its own channel only: vertical window first, then horizontal window.",
  "every accepted call, channel count and CPU",
  "All widths and pictures.",
  ["src/sse/vertical_u16_lb.rs", "src/avx2/vertical_u16_lb.rs", "src/sse/rgba_u16_lb.rs"])
p("u16 results are clamped to the depth whatever the samples",
  "On x86, a resize into an image of up to 12 bits writes samples that fit the depth even if source samples do not.",
  "every accepted call, CPU and picture",
  "All pictures: intermediate sums and saturating packs.",
  ["src/sse/vertical_u16_lb.rs", "src/sse/rgba_u16_lb.rs"])
p("Flat rows stay flat above 12 bits on x86",
  "If every row of a 13 to 16-bit image holds one sample value, so does every row of a resize that keeps the width.",
  "every accepted call, CPU and such picture",
  "All widths: vector groups round to nearest, scalar tails round up.",
  ["src/sse/vertical_u16.rs", "src/mixed_storage.rs"])
p("f32 resizes stay inside the buffers on x86",
  "On every x86 CPU (with or without SSE4.1, AVX2, FMA), an accepted resize of an f32 image returns normally, reads nothing outside its buffers and writes only pixels of the destination, for every filter, size and sample values including NaN and infinities.",
  "every accepted f32 call with 1 to 4 channels, every CPU, any arithmetic",
  "The unsafe vector code reads raw pointers: every width, window size and tail must be covered.",
  ["src/sse/vertical_f32.rs", "src/avx2/vertical_f32.rs", "src/sse/plane_f32.rs", "src/sse/rgb_f32.rs", "src/sse/rgba_f32.rs", "src/avx2/rgba_f32.rs", "src/dispatch_group_f32.rs"])
p("f32 vertical results on x86 are those of the portable code",
  "A resize of a finite f32 image that keeps the width gives on every x86 CPU exactly the image of the portable code with the same kind of multiply-add (fused only with AVX2 and FMA); without FMA all CPUs agree bit for bit.",
  "every accepted f32 call, channel count, CPU and finite picture",
  "Widths are cut into groups of 32, 24, 16, 8, 4 and single samples by different code.",
  ["src/sse/vertical_f32.rs", "src/avx2/vertical_f32.rs", "src/floating_point_vertical.rs"])
p("f32 results for two and three channels on x86 are those of the portable code",
  "A resize of a finite f32 image with two or three channels (or four without AVX2) gives on every x86 CPU without FMA exactly the image of the portable code; and with AVX2 and FMA in a fusing build exactly that of the portable fusing code.",
  "every accepted call, CPU and finite picture",
  "All window sizes and pictures; rounding is not associative, so any change of order shows for some picture.",
  ["src/sse/rgb_f32.rs", "src/sse/rgba_f32.rs", "src/sse/vertical_f32.rs", "src/avx2/vertical_f32.rs"])
p("f32 results are accurate on x86",
  "On every x86 CPU every sample of a resized finite f32 image with two, three or four channels (and of any image whose width is kept) differs from the exactly computed weighted sum by at most the binary32 rounding bound of a sum of that many terms; so two CPUs differ by at most twice that bound.",
  "every accepted call, CPU, finite picture, kernel and window size",
  "An error bound quantifies over all pictures, weights and orders of addition.",
  ["src/sse/vertical_f32.rs", "src/avx2/vertical_f32.rs", "src/sse/plane_f32.rs", "src/sse/rgb_f32.rs", "src/sse/rgba_f32.rs", "src/avx2/rgba_f32.rs", "src/dispatch_group_f32.rs"])
p("One-channel f32 results are accurate on x86",
  "The same accuracy for one-channel f32 images in every row.",
  "every accepted one-channel call, CPU, finite picture and window size",
  "The faulty loop needs windows of more than 16 taps and rows after the last group of four.",
  ["src/sse/plane_f32.rs"])
p("Equal f32 rows stay equal (two and three channels, and four without FMA) on x86",
  "When a resize keeps the height, source rows with equal samples become destination rows with equal samples, wherever they are; for two or three channels on every CPU and for four unless AVX2 and FMA are both present.",
  "every accepted call, pair of rows, CPU and picture, any arithmetic",
  "Rows are processed in groups of four and singly by different code; heights and window sizes are unbounded.",
  ["src/sse/rgb_f32.rs", "src/sse/rgba_f32.rs", "src/avx2/rgba_f32.rs", "src/dispatch_group_f32.rs"])
p("Equal f32 rows stay equal (one channel, and four with FMA) on x86",
  "The same for one channel and for four channels with AVX2 and FMA.",
  "every accepted call, pair of rows, CPU and picture",
  "Rows are processed in groups of four and singly by different code; heights and window sizes are unbounded.",
  ["src/sse/plane_f32.rs", "src/avx2/rgba_f32.rs"])
p("f32 samples depend only on their windows and channel on x86",
  "On every x86 CPU a sample of a resized f32 image depends only on the source samples of its channel inside its vertical and horizontal windows; a NaN or infinity elsewhere does not affect it.",
  "every accepted call, pair of pictures that agree on the windows, CPU, any arithmetic",
  "Vector lanes hold neighbouring pixels and channels; leaks would depend on positions, widths and values such as NaN.",
  ["src/sse/vertical_f32.rs", "src/avx2/vertical_f32.rs", "src/sse/plane_f32.rs", "src/sse/rgb_f32.rs", "src/sse/rgba_f32.rs", "src/avx2/rgba_f32.rs", "src/dispatch_group_f32.rs"])
p("f32 results of one and four channels do not depend on the CPU without FMA",
  "A resize of a finite f32 image of one or four channels gives the same bits on all x86 CPUs without FMA.",
  "every accepted call, pair of CPUs and finite picture",
  "All window sizes and pictures; rounding is not associative.",
  ["src/sse/plane_f32.rs", "src/sse/rgba_f32.rs", "src/avx2/rgba_f32.rs"])
p("RGBA f32 with premultiplication is resize-then-divide on x86",
  "resize_rgba_f32 with premultiply_alpha = true returns Ok on every x86 CPU, keeps row padding, and gives the plain resize of the premultiplied picture (the picture itself if its alpha is constant) with every colour divided by the resized alpha: 0 where that is 0, otherwise within one part in 2^22.",
  "every accepted RGBA f32 call, CPU, finite picture",
  "The composition covers all sizes, alphas and pictures; the vector and scalar columns divide differently.",
  ["src/scaler.rs", "src/alpha_handle_f32.rs", "src/avx2/alpha_f32.rs", "src/sse/alpha_f32.rs"])
p("The alpha channel of an RGBA f32 resize does not depend on premultiplication",
  "resize_rgba_f32 stores the same alpha in every pixel with premultiply_alpha = true and = false.",
  "every accepted RGBA f32 call and CPU",
  "Needs all pictures and sizes; several vector loops handle alpha lanes separately.",
  ["src/scaler.rs", "src/alpha_handle_f32.rs"])
p("Premultiplication does not change colours of RGBA f32 pictures of constant alpha",
  "For a picture whose alpha is the same everywhere, premultiply_alpha = true gives the colours of the plain resize up to rounding.",
  "every accepted RGBA f32 call, CPU and picture of constant alpha",
  "Depends on the global check for constant alpha; all alphas must be considered.",
  ["src/scaler.rs", "src/alpha_check.rs"])
p("Colour scalers resize in their colour space",
  "For pictures without row padding, resize_rgb and resize_rgba of the Lab, Luv, LCh, sigmoidal and XYZ scalers return Ok and every result pixel is the back-conversion of the pixel that the ordinary f32 resize (with the same premultiplication setting) makes of the picture with every pixel converted.",
  "every accepted call, conversion function, filter, CPU",
  "The claim is about all conversions, pictures and sizes.",
  ["src/colors/linear_precise_scaler.rs", "src/colors/linear_scaler.rs", "src/colors/lab_scaler.rs", "src/colors/luv_scaler.rs", "src/colors/lch_scaler.rs", "src/colors/oklab_scaler.rs", "src/colors/jzazbz_scaler.rs", "src/colors/sigmoidal_scaler.rs", "src/colors/xyz_scaler.rs"])
p("Colour scalers use their transfer function",
  "The linear (RGB), approximate linear (RGB, RGBA), Oklab and Jzazbz scalers convert to and from their colour space with the transfer function (and luminance) given to new().",
  "every accepted call, transfer function, conversion",
  "Equality for all transfer functions and pictures.",
  ["src/colors/linear_precise_scaler.rs", "src/colors/linear_scaler.rs", "src/colors/oklab_scaler.rs", "src/colors/jzazbz_scaler.rs"])
p("The linear scaler's RGBA resize uses its transfer function",
  "LinearScaler::resize_rgba converts with the transfer function given to new().",
  "every accepted call, transfer function, conversion",
  "Equality for all transfer functions and pictures.",
  ["src/colors/linear_precise_scaler.rs"])
p("Colour scalers honour row padding",
  "The result of a colour scaler does not depend on the row padding of the source, and the row padding of the destination is not written.",
  "every accepted call, pair of strides",
  "All strides and paddings.",
  ["src/colors/linear_precise_scaler.rs", "src/colors/linear_scaler.rs", "src/colors/lab_scaler.rs", "src/colors/luv_scaler.rs", "src/colors/lch_scaler.rs", "src/colors/oklab_scaler.rs", "src/colors/jzazbz_scaler.rs", "src/colors/sigmoidal_scaler.rs", "src/colors/xyz_scaler.rs"])
p("Colour scalers copy pictures of equal size",
  "When source and destination have the same size every colour scaler copies every sample unchanged, for any strides.",
  "all nine scalers, every accepted call with equal sizes",
  "All pictures, sizes and strides.",
  ["src/colors/linear_precise_scaler.rs", "src/colors/linear_scaler.rs", "src/colors/lab_scaler.rs", "src/colors/luv_scaler.rs", "src/colors/lch_scaler.rs", "src/colors/oklab_scaler.rs", "src/colors/jzazbz_scaler.rs", "src/colors/sigmoidal_scaler.rs", "src/colors/xyz_scaler.rs"])
p("Colour scalers report the ordinary scaler's errors",
  "resize_rgb and resize_rgba of every colour scaler fail exactly when the ordinary scaler fails on the same images, with the same error, and then leave the destination untouched; the inner resize adds no errors.",
  "all nine scalers, every pair of images",
  "All malformed and well-formed images.",
  ["src/colors/linear_precise_scaler.rs", "src/colors/linear_scaler.rs", "src/colors/lab_scaler.rs", "src/colors/luv_scaler.rs", "src/colors/lch_scaler.rs", "src/colors/oklab_scaler.rs", "src/colors/jzazbz_scaler.rs", "src/colors/sigmoidal_scaler.rs", "src/colors/xyz_scaler.rs"])
p("Every scaler resizes two-channel pictures",
  "resize_cbcr8 of every implementation of the Scaling trait resizes a valid two-channel picture.",
  "the ten implementations, every accepted call",
  "All pictures and sizes.",
  ["src/colors/linear_precise_scaler.rs", "src/colors/linear_scaler.rs", "src/colors/lab_scaler.rs", "src/colors/luv_scaler.rs", "src/colors/lch_scaler.rs", "src/colors/oklab_scaler.rs", "src/colors/jzazbz_scaler.rs", "src/colors/sigmoidal_scaler.rs", "src/colors/xyz_scaler.rs"])
p("Colour scalers are local",
  "A pixel of the result of an f32 colour scaler (RGB, or RGBA without premultiplication) depends only on the source pixels in its vertical and horizontal windows.",
  "every pair of pictures that agree on the windows, conversion, filter, CPU",
  "Quantifies over pairs of pictures.",
  ["src/colors/linear_precise_scaler.rs", "src/colors/linear_scaler.rs", "src/colors/lab_scaler.rs", "src/colors/luv_scaler.rs", "src/colors/lch_scaler.rs", "src/colors/oklab_scaler.rs", "src/colors/jzazbz_scaler.rs", "src/colors/sigmoidal_scaler.rs", "src/colors/xyz_scaler.rs"])
p("Premultiplied RGBA f32 resizes are local",
  "With premultiply_alpha = true a pixel of a resized RGBA f32 picture depends only on the source pixels in its windows.",
  "every pair of pictures that agree on the windows, filter, CPU",
  "Quantifies over pairs of pictures; the alpha check is global.",
  ["src/scaler.rs", "src/alpha_check.rs", "src/alpha_handle_f32.rs"])
p("Packed 10-bit resizes stay in bounds on x86_64",
  "On every x86_64 processor, with or without SSE4.1, every accepted convolution resize of packed 10-bit images returns Ok without an out-of-bounds access, keeps the length of the destination and its row padding.",
  "every processor, layout, byte order, filter, picture, pair of sizes; equal strides when only the height changes",
  "The vector code uses raw pointers; all sizes, windows and remainders must be covered.",
  ["src/sse/horizontal_ar30.rs", "src/sse/vertical_ar30.rs", "src/sse/utils.rs", "src/dispatch_group_ar30.rs", "src/resize_ar30.rs"])
p("Vertical resizes of packed 10-bit images are exact with SSE4.1",
  "When only the height changes, each 10-bit component is the full weighted sum of its window rounded to nearest and clamped, alpha is full, and the result equals the portable one except at exact ties, where it is at most one less.",
  "every picture, filter, layout, byte order, pair of heights (accumulators below 2^30)",
  "All pictures and windows.",
  ["src/sse/horizontal_ar30.rs", "src/sse/vertical_ar30.rs", "src/sse/utils.rs", "src/dispatch_group_ar30.rs", "src/resize_ar30.rs"])
p("Resizes of packed 10-bit images are separable with SSE4.1",
  "Each 10-bit component of the result is the horizontal weighted sum of the vertical weighted sums of the same component, each weight applied to its own pixel, and alpha is full.",
  "every picture, filter, layout, byte order, pair of sizes (accumulators below 2^30)",
  "All pictures and windows.",
  ["src/sse/horizontal_ar30.rs", "src/sse/vertical_ar30.rs", "src/sse/utils.rs", "src/dispatch_group_ar30.rs", "src/resize_ar30.rs"])
p("Equal source rows give equal destination rows for packed 10-bit images with SSE4.1",
  "When only the width changes, two equal source rows give two equal destination rows, wherever they are in the image.",
  "every picture, filter, row index",
  "All heights, rows and windows.",
  ["src/sse/horizontal_ar30.rs", "src/sse/vertical_ar30.rs", "src/sse/utils.rs", "src/dispatch_group_ar30.rs", "src/resize_ar30.rs"])
p("Rows of one colour keep their brightness in packed 10-bit images with SSE4.1",
  "When only the width changes and every source row is of one colour, rows handled in groups of four get that colour times the sum of the weights, rounded, within one of the portable result, for windows of every size.",
  "every picture with rows of one colour, filter, width",
  "All colours and windows.",
  ["src/sse/horizontal_ar30.rs", "src/sse/vertical_ar30.rs", "src/sse/utils.rs", "src/dispatch_group_ar30.rs", "src/resize_ar30.rs"])
p("resize_ar30 errors on x86_64",
  "resize_ar30 returns Ok exactly for images of non-zero representable size with well-formed buffers; otherwise it returns the documented error and leaves the destination untouched, on every processor.",
  "every processor and pair of images",
  "All malformed and well-formed images.",
  ["src/resize_ar30.rs"])
p("Resizes of packed 10-bit images are local with SSE4.1",
  "A component of a destination pixel depends only on the same component of the source pixels in its vertical and horizontal windows, not on strides or padding.",
  "every pair of pictures that agree on the windows, filter, layout, byte order (accumulators below 2^30)",
  "Quantifies over pairs of pictures.",
  ["src/sse/horizontal_ar30.rs", "src/sse/vertical_ar30.rs", "src/sse/utils.rs", "src/dispatch_group_ar30.rs", "src/resize_ar30.rs"])
p("Averaging filters never overflow the integer accumulators",
  "With Bilinear, Box, Area, Quadric, EwaQuadric, Welch or Hann, a resize of an 8-bit, 10-bit or 12-bit image never wraps around in a 32-bit accumulator however many source pixels fall on one destination pixel: the quantised weights of a destination coordinate add up to at most eight times unity, and every 8-bit sample is the exact two-pass fixed point value.",
  "every averaging filter, every pair of sizes with source dimensions up to 2^23, every picture",
  "Rounding of sums of up to eight million weights; no test reaches these window sizes.",
  ["src/scaler.rs:Scaler::generate_weights", "src/filter_weights.rs:numerical_approximation", "src/fixed_point_horizontal.rs", "src/fixed_point_vertical.rs"])
p("Averaging weights add up to one in single precision",
  "For Bilinear, Box, Area, Quadric, EwaQuadric and Welch the weights of every destination coordinate with n taps are non-negative and add up to one up to (2n+5) 2^-24, in the binary32 arithmetic of the code.",
  "every pair of sizes with source up to 2^23, every destination coordinate",
  "Accumulated rounding errors over all sizes.",
  ["src/scaler.rs:Scaler::generate_weights", "src/sampler.rs"])
p("Uniform 8-bit images keep their value under averaging filters",
  "A uniform 8-bit image of value v resized with one of these filters with windows of at most 124 taps gives samples v, or v-1 where a vertical pass was made.",
  "every value, every number of channels, every pair of sizes whose windows have at most 124 taps",
  "All sizes and values; depends on the rounding of every weight.",
  ["src/scaler.rs:Scaler::generate_weights", "src/filter_weights.rs:numerical_approximation", "src/fixed_point_horizontal.rs"])
p("Brightness is kept at every reduction ratio",
  "A uniform 8-bit image keeps its value, up to one level, when it is reduced by any ratio.",
  "every value and every pair of sizes",
  "Fails only at extreme ratios.",
  ["src/filter_weights.rs:numerical_approximation", "src/scaler.rs:Scaler::generate_weights"])
p("Resizes of 16-bit float images on x86 stay in bounds",
  "resize_plane_f16, resize_cbcr_f16, resize_rgb_f16 and resize_rgba_f16 (no alpha) with well-formed images return normally, read nothing outside the buffers and keep the destination's shape, whatever the samples (NaN and infinities included) and whatever vector instructions (SSE4.1, AVX2, F16C, FMA) the processor has.",
  "every x86 processor, picture, size, stride, filter, number of channels",
  "Vector loads of 2 to 16 halves at every position of every window; tests run on one processor and a few sizes.",
  ["src/f16.rs", "src/sse/rgb_f16.rs", "src/sse/rgba_f16.rs", "src/sse/vertical_f16.rs", "src/avx2/rgba_f16.rs", "src/avx2/vertical_f16.rs", "src/dispatch_group_f16.rs"])
p("16-bit float resizes keep row padding where they are vectorised",
  "A resize of 16-bit float images that keeps the width, or of three or four channels on a processor with SSE4.1, changes nothing but pixels.",
  "every picture, size, stride, filter",
  "All strides and sizes.",
  ["src/f16.rs", "src/sse/rgb_f16.rs", "src/sse/rgba_f16.rs", "src/avx2/rgba_f16.rs"])
p("16-bit float resizes always keep row padding",
  "No resize of 16-bit float images writes outside the pixels of the destination.",
  "every processor, picture, size, stride, filter, number of channels",
  "Needs padded destinations; the code that is selected depends on the processor.",
  ["src/f16.rs:convolve_horizontal_rgb_native_row_f16", "src/f16.rs:convolve_horizontal_rgba_4_row_f16"])
p("Samples of resized 16-bit float images",
  "Every sample is the separable resize of its channel: each pass widens its samples to binary32, adds the products in the order of the processor with one rounding per operation, and narrows once to a half. Processors with the same order and IEEE conversions give the same pixels.",
  "every processor, picture, size, filter, number of channels",
  "All pictures and sizes; depends on rounding.",
  ["src/f16.rs", "src/sse/rgb_f16.rs", "src/sse/rgba_f16.rs", "src/sse/vertical_f16.rs", "src/avx2/rgba_f16.rs", "src/avx2/vertical_f16.rs"])
p("Resizes of 16-bit float images are local",
  "A destination sample depends only on the source samples of its channel in its windows: what is elsewhere, NaN and infinities included, and strides and padding do not matter.",
  "every processor, every pair of pictures that agree on the windows",
  "Quantifies over pairs of pictures.",
  ["src/f16.rs", "src/sse/rgb_f16.rs", "src/sse/rgba_f16.rs", "src/sse/vertical_f16.rs", "src/avx2/rgba_f16.rs", "src/avx2/vertical_f16.rs"])
p("Accuracy of resized 16-bit float images",
  "If the samples are finite and the result is below 65520, every resized sample is a finite half within the binary32 summation error plus half a unit in the last place of a half (per pass) of the exact weighted sum, on every processor with F16C or without SSE4.1; on processors with SSE4.1 only, for non-negative samples and weights.",
  "every picture, size, filter, number of channels",
  "Accumulated rounding errors over all pictures and sizes.",
  ["src/f16.rs", "src/sse/rgba_f16.rs", "src/avx2/rgba_f16.rs", "src/sse/vertical_f16.rs", "src/avx2/vertical_f16.rs", "src/sse/f16_utils.rs"])
p("Widening halves without F16C is exact",
  "On processors without F16C every finite half, normal or subnormal, of either sign, is widened to exactly its value.",
  "every finite half",
  "Depends on bit tricks for subnormals; library tests never run without F16C.",
  ["src/sse/f16_utils.rs:_mm_cvtph_ps_fallback"])
p("Narrowing to halves without F16C rounds to nearest",
  "On processors without F16C every non-negative single below 65520 is narrowed to a nearest half (ties upward), the IEEE result except for ties, and narrowing undoes widening.",
  "every single from 0 to 65520",
  "More than a billion inputs, and tests never run without F16C.",
  ["src/sse/f16_utils.rs:_mm_cvtps_ph_fallback"])
p("Signs and infinities survive 16-bit float resizes on every processor",
  "Negative results stay negative, results of 65520 and more become infinite, and infinities stay infinite when singles are converted to halves, on every processor.",
  "every processor, every value",
  "Tests run on one processor.",
  ["src/sse/f16_utils.rs:_mm_cvtps_ph_fallback", "src/sse/f16_utils.rs:_mm_cvtph_ps_fallback"])
p("Premultiplication of 16-bit float images",
  "Premultiplying an RGBA f16 image of finite samples makes every colour the half nearest to the exact product with alpha (infinity on overflow), keeps every alpha and leaves row padding alone, on every processor with F16C and every one without SSE4.1.",
  "every such processor, every picture of finite samples, every size and stride",
  "All pairs of halves at every column; blocks of 8 or 16 pixels and remainders use different code.",
  ["src/alpha_handle_f16.rs", "src/sse/alpha_f16.rs", "src/avx2/alpha_f16.rs"])
p("Premultiplication of 16-bit float images without F16C",
  "The same on processors with SSE4.1 and without F16C.",
  "every picture of finite samples, every size and stride",
  "Tests run on one processor.",
  ["src/sse/alpha_f16.rs", "src/sse/f16_utils.rs"])
p("Unpremultiplication of 16-bit float images divides by alpha",
  "Unpremultiplying an RGBA f16 image replaces every colour by its quotient by alpha, to within rounding, and by 0 where alpha is 0.",
  "every processor, every picture of finite samples, every size",
  "Rows of at least 8 (16) pixels run other code than short rows.",
  ["src/alpha_handle_f16.rs", "src/sse/alpha_f16.rs:sse_unpremultiply_alpha_rgba_f16_row_impl", "src/avx2/alpha_f16.rs:avx_unpremultiply_alpha_rgba_f16_row_impl"])
p("Unpremultiplication of 16-bit float images changes only colours",
  "Unpremultiplying an RGBA f16 image, whatever its samples, returns normally, accesses nothing outside the buffer and keeps all alphas and row padding.",
  "every x86 processor, every picture including NaN and infinities, every size and stride",
  "All sizes and strides.",
  ["src/alpha_handle_f16.rs", "src/sse/alpha_f16.rs", "src/avx2/alpha_f16.rs"])
p("A 16-bit float resize with alpha is premultiply, resize, unpremultiply",
  "resize_rgba_f16 with premultiply_alpha = true returns Ok, accesses nothing outside the buffers, and is the plain resize of the premultiplied copy followed by unpremultiplication; alphas and everything outside the pixels is as the plain resize left it.",
  "every x86 processor, accepted pair of images, filter, library",
  "All pictures and sizes.",
  ["src/scaler.rs: Scaler::generic_resize_with_alpha", "src/scaler_f16.rs:Scaler::resize_rgba_f16", "src/image_store.rs", "src/alpha_handle_f16.rs"])
p("The alpha channel of a 16-bit float resize does not depend on premultiplication",
  "For finite samples, resize_rgba_f16 stores the same alpha in every pixel with premultiply_alpha = true and false.",
  "every x86 processor, accepted pair of images, filter",
  "Relates two calls for all pictures.",
  ["src/scaler_f16.rs:Scaler::resize_rgba_f16", "src/alpha_handle_f16.rs"])
p("Colours of a 16-bit float resize with alpha",
  "With premultiply_alpha = true every colour of the result is the resized premultiplied colour divided by the resized alpha, to within rounding, and 0 where that alpha is 0.",
  "every x86 processor, accepted pair of images, filter",
  "Depends on the width of the destination and the processor.",
  ["src/scaler_f16.rs:Scaler::resize_rgba_f16", "src/sse/alpha_f16.rs", "src/avx2/alpha_f16.rs"])
p("A 16-bit RGBA resize with alpha is premultiply, resize, unpremultiply on x86",
  "resize_rgba_u16 with premultiply_alpha = true returns Ok, accesses nothing outside the buffers and keeps row padding; it is the plain resize, unpremultiplied, of the source or (when alpha varies) its premultiplied copy, which at 10 and 12 bits has every colour times alpha rounded to nearest and always the same alphas; alphas are as the plain resize left them.",
  "every x86 CPU with SSE4.1 or AVX2, accepted pair of images at any depth, filter, library",
  "All pictures and sizes; which code runs depends on the CPU.",
  ["src/scaler.rs:Scaler::generic_resize_with_alpha", "src/alpha_handle_u16.rs", "src/sse/alpha_u16.rs", "src/avx2/alpha_u16.rs", "src/sse/check_alpha.rs", "src/avx2/check_alpha.rs"])
p("The alpha channel of a 16-bit RGBA resize does not depend on premultiplication on x86",
  "resize_rgba_u16 stores the same alpha in every pixel with premultiply_alpha = true and false.",
  "every x86 CPU with SSE4.1 or AVX2, accepted pair of images at any depth, filter, library",
  "Relates two calls for all pictures.",
  ["src/scaler.rs:Scaler::generic_resize_with_alpha", "src/sse/alpha_u16.rs", "src/avx2/alpha_u16.rs", "src/sse/vertical_u16.rs", "src/avx2/vertical_u16_lb.rs"])
p("Colours of a 16-bit RGBA resize with alpha on x86",
  "With premultiply_alpha = true every colour of the result is the resized premultiplied colour divided by the resized alpha, to within the precision of the reciprocal, and fits the depth.",
  "every x86 CPU with SSE4.1 or AVX2, accepted pair of images, filter",
  "All pictures and sizes.",
  ["src/scaler.rs:Scaler::generic_resize_with_alpha", "src/sse/alpha_u16.rs", "src/avx2/alpha_u16.rs"])
p("8-bit resizes on AArch64 stay inside their buffers",
  "On AArch64, with or without the rdm extension and with either workload strategy, resizing an accepted pair of 8-bit images with 1 to 4 channels returns Ok, loads and stores nothing outside the source and destination, and writes nothing but the destination's pixels.",
  "every CPU of the architecture, strategy, filter, pair of sizes and strides, picture",
  "The NEON kernels use raw pointers and hand-written remainder loops; every width, window size and stride matters.",
  ["src/neon/vertical_u8.rs", "src/neon/vertical_u8_rdm.rs", "src/neon/rgba_u8.rs", "src/neon/rgba_u8_rdm.rs", "src/neon/rgb_u8.rs", "src/neon/rgb_u8_sqrdml.rs", "src/neon/plane_u8.rs", "src/neon/plane_u8_rdm.rs", "src/neon/cbcr8_rdm.rs", "src/rgba_u8.rs", "src/rgb_u8.rs", "src/plane_u8.rs", "src/cbcr8.rs"])
p("Values of RGB and RGBA resizes with the 32-bit NEON handlers",
  "With PreferQuality, or without the rdm extension, each pass of an RGB or RGBA resize is the fixed point weighted sum of the window rounded to nearest (halves down) and clamped, whenever rows leave a remainder of less than 8 bytes after blocks of 16, or no vertical window has exactly three taps, or the height does not change.",
  "every strategy, filter, pair of sizes, picture whose accumulators cannot overflow",
  "All widths, window sizes and samples; the sums are split over lanes and blocks.",
  ["src/neon/vertical_u8.rs", "src/neon/rgba_u8.rs", "src/neon/rgb_u8.rs", "src/neon/utils.rs"])
p("Columns are filtered alike by the 32-bit NEON handlers",
  "In a resize on AArch64 that only changes the height, columns with equal samples stay equal.",
  "every strategy without rdm, filter, size, picture",
  "Depends on the width modulo 16 and the window size.",
  ["src/neon/vertical_u8.rs:convolve_vertical_neon_row_full"])
p("One-channel images keep their horizontal windows with the 32-bit NEON handlers",
  "Resizing the width of an 8-bit one-channel image on AArch64 uses every tap of each window (a white row stays white).",
  "every strategy without rdm, filter, size, picture",
  "Universal over pictures: the failure is total for every picture.",
  ["src/neon/plane_u8.rs:convolve_horizontal_plane_neon_rows_4_u8", "src/neon/plane_u8.rs:convolve_horizontal_plane_neon_row"])
p("Values of 8-bit resizes with the rdm handlers",
  "With the default strategy on an AArch64 CPU with rdm, if neither dimension changes by a factor of eight or more and no 16-bit accumulator can overflow, each pass is the low precision weighted sum of the window, whenever rows leave a remainder of less than 16 bytes after blocks of 32, or no vertical window has exactly four taps, or the height does not change.",
  "every channel count, filter, pair of sizes, picture",
  "All widths, window sizes and samples.",
  ["src/neon/vertical_u8_rdm.rs", "src/neon/rgba_u8_rdm.rs", "src/neon/rgb_u8_sqrdml.rs", "src/neon/plane_u8_rdm.rs", "src/neon/cbcr8_rdm.rs"])
p("Columns are filtered alike by the rdm handlers",
  "In a resize with the default strategy on an AArch64 CPU with rdm that only changes the height, columns with equal samples stay equal.",
  "every filter, size, picture",
  "Depends on the width modulo 32 and the window size.",
  ["src/neon/vertical_u8_rdm.rs"])
p("The workload strategy changes nothing on AArch64 without rdm",
  "On an AArch64 CPU without the rdm extension, PreferQuality and PreferSpeed give exactly the same 8-bit picture.",
  "every channel count, filter, pair of sizes, picture whose accumulators cannot overflow",
  "Relates two calls for all pictures.",
  ["src/neon/vertical_u8.rs", "src/neon/rgba_u8.rs", "src/neon/rgb_u8.rs", "src/neon/plane_u8.rs", "src/cbcr8.rs"])
p("RGB and RGBA width changes agree between AArch64 and the portable code",
  "A resize of an RGB or RGBA image that only changes its width gives, with the 32-bit NEON handlers, in every sample the value of the portable code or one less, the latter only where the exact weighted sum is half-way between two values.",
  "every strategy, filter, pair of sizes, picture whose accumulators cannot overflow",
  "Relates two implementations on all pictures.",
  ["src/neon/rgba_u8.rs", "src/neon/rgb_u8.rs", "src/convolve_naive_f32.rs", "src/rgba_u8.rs"])
p("Locality of 8-bit resizes on AArch64",
  "An output pixel of an 8-bit resize on AArch64 depends only on the source pixels inside its vertical and horizontal windows.",
  "every CPU of the architecture, strategy, channel count, filter, pair of sizes, pair of pictures",
  "Relates two runs for all pictures.",
  ["src/neon"])
p('RGBA8 premultiplication on AArch64: colours',
  'Premultiplying an RGBA8 image on AArch64 into an image of the same size stays inside both buffers, replaces every colour by c * a / 255 rounded to nearest (the same values as the portable code) and does not touch row padding.',
  'every pair of images of equal size, any strides and samples',
  'Blocks of 64, 16 and 1 pixels; every width and sample value.',
  ["src/neon/alpha_u8.rs", "src/alpha_handle_u8.rs", "src/neon/alpha_u8.rs:neon_premultiply_alpha_rgba_impl_row"])
p('RGBA8 premultiplication on AArch64 keeps alpha',
  'After premultiplying an RGBA8 image on AArch64 every pixel has its source alpha.',
  'every image',
  'Depends on the width modulo 16.',
  ["src/neon/alpha_u8.rs", "src/alpha_handle_u8.rs", "src/neon/alpha_u8.rs:neon_premultiply_alpha_rgba_impl_row"])
p('RGBA8 unpremultiplication on AArch64',
  'Unpremultiplying an RGBA8 image on AArch64 stays inside the buffer, replaces every colour by min(255, 255 c / a) to within 5/4 (0 where alpha is 0, unchanged where it is 255), keeps alpha and row padding.',
  'every image, also with colours above their alpha',
  'All sample values, through an 8-bit reciprocal estimate and f32 rounding.',
  ["src/neon/alpha_u8.rs", "src/alpha_handle_u8.rs", "src/neon/alpha_u8.rs:NeonDisassociateAlpha"])
p('RGBA8 unpremultiplication agrees between AArch64 and the portable code',
  'Unpremultiplying an image whose colours are at most their alpha gives the same picture on AArch64 as with the portable code.',
  'every such image',
  'Relates two implementations on all pictures.',
  ["src/neon/alpha_u8.rs", "src/alpha_handle_u8.rs"])
p('The alpha check of RGBA8 on AArch64',
  'On AArch64 an RGBA8 image counts as needing premultiplication iff two of its pixels differ in alpha, whatever is in the row padding.',
  'every image',
  'All widths; 32-bit sums over lanes.',
  ["src/neon/check_alpha.rs:neon_has_non_constant_cap_alpha_rgba8", "src/image_store.rs"])
p('The alpha check of RGBA16 on AArch64',
  'On AArch64 an RGBA16 image counts as needing premultiplication iff two of its pixels differ in alpha, whatever is in the row padding.',
  'every image',
  'All widths; 32-bit sums over lanes.',
  ["src/neon/check_alpha.rs:neon_has_non_constant_cap_alpha_rgba16", "src/image_store.rs"])
p('RGBA8 resizes with alpha on AArch64',
  'An accepted RGBA8 resize with premultiply_alpha = true on AArch64 returns Ok, stays inside its buffers, keeps row padding, and stores the plain resize of a picture `work` with its colours divided by its alpha; `work` is the source if its alpha is constant, else a copy with colours multiplied by alpha (alpha squared in the last width % 16 columns).',
  'every strategy, CPU with or without rdm, filter, accepted pair of images whose accumulators cannot overflow',
  'Composition of three passes over all pictures and sizes.',
  ["src/scaler.rs:Scaler::generic_resize_with_alpha", "src/neon/alpha_u8.rs", "src/alpha_handle_u8.rs"])
p('The alpha round trip of RGBA8 on AArch64',
  'Premultiplying an RGBA8 image and unpremultiplying the result on AArch64 returns every alpha, every opaque colour exactly, and other colours to within 255 / (2 a) + 5/4 levels.',
  'every image',
  'All sample values and widths.',
  ["src/neon/alpha_u8.rs", "src/alpha_handle_u8.rs"])
p('RGBA16 premultiplication on AArch64: exact rounding',
  'Premultiplying a 16-bit RGBA16 image on AArch64, or a 10/12-bit one on a CPU without half-precision arithmetic, stays inside both buffers, replaces every colour by c * a / max rounded to nearest, keeps every alpha and does not touch row padding.',
  'every pair of images of equal size, any strides, samples fitting the depth',
  'All widths, samples and paddings.',
  ["src/neon/alpha_u16.rs", "src/alpha_handle_u16.rs", "src/neon/alpha_u16.rs:neon_premultiply_alpha_rgba_row_u16"])
p('RGBA16 premultiplication on AArch64: other depths',
  'At every depth from 1 to 15 other than 10 and 12, premultiplying an RGBA16 image on AArch64 makes every colour c * a / max to within 51/100 and keeps every alpha and the row padding.',
  'every pair of images of equal size, any strides, samples fitting the depth',
  'All widths and samples through f32 rounding.',
  ["src/neon/alpha_u16.rs", "src/alpha_handle_u16.rs"])
p('RGBA16 premultiplication on AArch64 with half-precision arithmetic',
  'Premultiplying a 10/12-bit RGBA16 image on an AArch64 CPU with half-precision arithmetic rounds c * a / max to nearest and leaves opaque pixels unchanged.',
  'every pair of images of equal size, any strides, samples fitting the depth',
  'All samples through half-precision rounding.',
  ["src/neon/alpha_u16.rs", "src/alpha_handle_u16.rs"])
p('RGBA16 unpremultiplication on AArch64',
  'Unpremultiplying an RGBA16 image whose colours do not exceed alpha (10/12 bits: without half-precision arithmetic) gives max * c / a to within 51/100 plus a three-millionth, fits the depth, leaves transparent pixels alone, keeps alpha and row padding.',
  'every depth up to 16, every such image',
  'All widths and samples through f32 rounding.',
  ["src/neon/alpha_u16.rs", "src/alpha_handle_u16.rs", "src/neon/alpha_u16.rs:neon_unpremultiply_alpha_rgba_row_u16"])
p('RGBA16 unpremultiplication on AArch64 saturates',
  'Unpremultiplying a pixel whose colour exceeds its alpha on AArch64 gives the maximum of the depth.',
  'every RGBA16 image fitting its depth',
  'All colours and alphas.',
  ["src/neon/alpha_u16.rs", "src/alpha_handle_u16.rs"])
p('RGBA16 unpremultiplication on AArch64 with half-precision arithmetic',
  'Unpremultiplying a 10/12-bit RGBA16 image whose colours do not exceed alpha, on a CPU with half-precision arithmetic, gives max * c / a approximately, in samples that fit the depth, and keeps alpha and row padding.',
  'every such image',
  'All samples through half-precision rounding.',
  ["src/neon/alpha_u16.rs", "src/alpha_handle_u16.rs"])
p('RGBA16 alpha handling on AArch64 keeps alpha',
  'Whatever depth, samples and CPU, premultiplying and unpremultiplying RGBA16 images on AArch64 stays inside the buffers and keeps alpha, shape and row padding.',
  'every depth, image and CPU',
  'All widths and strides.',
  ["src/neon/alpha_u16.rs", "src/alpha_handle_u16.rs"])
p('RGBA f32 premultiplication on AArch64',
  'Premultiplying an RGBA f32 image on AArch64 stays inside both buffers, replaces every colour by the correctly rounded product with alpha and keeps every alpha and the row padding.',
  'every pair of images of equal size with finite samples',
  'All widths, strides and values.',
  ["src/neon/alpha_f32.rs", "src/alpha_handle_f32.rs", "src/neon/alpha_f32.rs:neon_premultiply_alpha_rgba_row_f32"])
p('RGBA f32 unpremultiplication on AArch64',
  'Unpremultiplying an RGBA f32 image on AArch64 gives 0 for transparent pixels, else c / a to within one part in 2^22, and keeps every alpha and the row padding.',
  'every image with alphas 0 or of magnitude 2^-100 to 2^100',
  'All widths, strides and values.',
  ["src/neon/alpha_f32.rs", "src/alpha_handle_f32.rs", "src/neon/alpha_f32.rs:neon_unpremultiply_alpha_rgba_f32_row"])
p('RGBA f32 alpha handling agrees between AArch64 and SSE4.1',
  'RGBA f32 alpha handling makes the same decision to premultiply, and stores the same samples, on AArch64 as on an x86 CPU with SSE4.1 and without AVX2.',
  'every pair of images of equal size with finite samples',
  'Relates two implementations on all pictures.',
  ["src/neon/alpha_f32.rs", "src/alpha_handle_f32.rs", "src/sse/alpha_f32.rs"])
p('RGBA f32 unpremultiplication on AArch64 does not depend on the column',
  'Two pixels with the same samples unpremultiply to the same samples on AArch64.',
  'every image and pair of pixels',
  'Depends on the width modulo 4.',
  ["src/neon/alpha_f32.rs", "src/alpha_handle_f32.rs"])
p('RGBA f32 resizes on AArch64 stay in bounds',
  'On AArch64 a resize of f32 images with four channels, or of any f32 images with the height kept, returns normally, reads nothing outside the buffers and writes only pixels of the destination.',
  'every accepted pair of images, any strides and filters; samples may be NaN or infinite',
  'All sizes, strides and filters; an out-of-bounds vector load is not visible in a result.',
  ["src/neon/vertical_f32.rs", "src/neon/plane_f32.rs", "src/neon/rgb_f32.rs", "src/neon/rgba_f32.rs", "src/dispatch_group_f32.rs"])
p('f32 resizes of one to three channels on AArch64 stay in bounds',
  'On AArch64 a resize of f32 images with one to three channels that changes the height returns normally and reads nothing outside the buffers.',
  'every accepted pair of images, any strides and filters',
  'An over-read of a few samples is invisible unless the page after the buffer is unmapped.',
  ["src/neon/vertical_f32.rs", "src/neon/plane_f32.rs", "src/neon/rgb_f32.rs", "src/neon/rgba_f32.rs", "src/dispatch_group_f32.rs", "src/neon/vertical_f32.rs:convolve_vertical_part_neon_4_f32"])
p('f32 resizes on AArch64 equal the portable code',
  'On AArch64 a resize of finite f32 images with two, three or four channels, or that keeps the width, gives bit for bit the image of the portable code with fused multiply-add.',
  'every accepted pair of finite images whose vertical pass stays in bounds (no row leaves 5-7 samples modulo 8, or rows are padded up to a multiple of 8, or the height is kept; always so for four channels)',
  'Relates two implementations on all pictures.',
  ["src/neon/vertical_f32.rs", "src/neon/plane_f32.rs", "src/neon/rgb_f32.rs", "src/neon/rgba_f32.rs", "src/dispatch_group_f32.rs", "src/rgb_f32.rs", "src/floating_point_horizontal.rs"])
p('f32 resizes of one to three channels on AArch64 equal those on AVX2 with FMA',
  'A resize of f32 images with one to three channels gives the same image on AArch64 as on an x86 CPU with AVX2 and FMA.',
  'every accepted pair of finite images whose vertical pass stays in bounds (no row leaves 5-7 samples modulo 8, or rows are padded up to a multiple of 8, or the height is kept; always so for four channels); any samples and arithmetic',
  'Relates two implementations on all pictures.',
  ["src/neon/vertical_f32.rs", "src/neon/plane_f32.rs", "src/neon/rgb_f32.rs", "src/neon/rgba_f32.rs", "src/dispatch_group_f32.rs", "src/sse/plane_f32.rs", "src/avx2/vertical_f32.rs"])
p('f32 resizes on AArch64 are accurate',
  'On AArch64 every sample of a resize of f32 images with two, three or four channels, or that keeps the width, is within the binary32 error bound of the exact weighted sum over its windows.',
  'every accepted pair of finite images whose vertical pass stays in bounds (no row leaves 5-7 samples modulo 8, or rows are padded up to a multiple of 8, or the height is kept; always so for four channels)',
  'Rounding errors of all pictures and filters.',
  ["src/neon/vertical_f32.rs", "src/neon/plane_f32.rs", "src/neon/rgb_f32.rs", "src/neon/rgba_f32.rs", "src/dispatch_group_f32.rs"])
p('f32 plane resizes on AArch64 are accurate',
  'On AArch64 every sample of a resize of f32 planes that keeps the height is within the binary32 error bound of the exact weighted sum over its window.',
  'every accepted pair of finite planes of equal height',
  "Depends on the row's position and the window size.",
  ["src/neon/vertical_f32.rs", "src/neon/plane_f32.rs", "src/neon/rgb_f32.rs", "src/neon/rgba_f32.rs", "src/dispatch_group_f32.rs", "src/neon/plane_f32.rs:convolve_horizontal_plane_neon_row_one"])
p('Equal rows stay equal in f32 resizes on AArch64',
  'When a resize of f32 images with two, three or four channels keeps the height, equal source rows become equal destination rows on AArch64.',
  'every accepted pair of images of equal height, every pair of rows, any arithmetic',
  "Depends on the rows' positions modulo 4 against the height.",
  ["src/neon/vertical_f32.rs", "src/neon/plane_f32.rs", "src/neon/rgb_f32.rs", "src/neon/rgba_f32.rs", "src/dispatch_group_f32.rs"])
p('Equal rows stay equal in f32 plane resizes on AArch64',
  'When a resize of f32 planes keeps the height, equal source rows become equal destination rows on AArch64.',
  'every accepted pair of planes of equal height, every pair of rows',
  "Depends on the rows' positions modulo 4 against the height.",
  ["src/neon/vertical_f32.rs", "src/neon/plane_f32.rs", "src/neon/rgb_f32.rs", "src/neon/rgba_f32.rs", "src/dispatch_group_f32.rs"])
p('f32 resizes on AArch64 are local',
  'On AArch64 a destination sample depends only on the source samples of its channel inside its windows, not on other samples, other channels or padding.',
  'every two accepted calls of equal size whose vertical passes stay in bounds, any samples and arithmetic',
  'Relates pairs of runs; NaNs outside the window must not leak.',
  ["src/neon/vertical_f32.rs", "src/neon/plane_f32.rs", "src/neon/rgb_f32.rs", "src/neon/rgba_f32.rs", "src/dispatch_group_f32.rs"])
p('RGBA f32 with premultiplication is resize-then-divide on AArch64',
  'On AArch64 resize_rgba_f32 with premultiply_alpha = true returns Ok, keeps row padding, and gives the plain resize of the premultiplied picture (the picture itself if its alpha is constant) with every colour divided by the resized alpha: 0 where that is 0, otherwise within one part in 2^22.',
  'every accepted RGBA f32 call and finite picture',
  'The composition covers all sizes, alphas and pictures; vector and trailing columns divide differently.',
  ["src/scaler.rs", "src/neon/alpha_f32.rs", "src/neon/rgba_f32.rs", "src/neon/vertical_f32.rs"])
p('The alpha channel of an RGBA f32 resize on AArch64 does not depend on premultiplication',
  'On AArch64 resize_rgba_f32 stores the same alpha in every pixel with premultiply_alpha = true and = false.',
  'every accepted RGBA f32 call',
  'Needs all pictures and sizes.',
  ["src/scaler.rs", "src/neon/alpha_f32.rs", "src/neon/rgba_f32.rs", "src/neon/vertical_f32.rs"])
p('Premultiplication on AArch64 does not change colours of RGBA f32 pictures of constant alpha',
  'On AArch64, for a picture whose alpha is the same everywhere, premultiply_alpha = true gives the colours of the plain resize up to rounding.',
  'every accepted RGBA f32 call and picture of constant alpha',
  'Depends on the global check for constant alpha; all alphas must be considered.',
  ["src/scaler.rs", "src/neon/alpha_f32.rs", "src/neon/rgba_f32.rs", "src/neon/vertical_f32.rs", "src/alpha_check.rs"])
p('No out-of-bounds access in u16 resizes on AArch64',
  'On AArch64, with and without half precision, an accepted resize of u16 images of any depth and channel count returns Ok, reads nothing outside the buffers and writes only pixels of the destination.',
  'every accepted u16 call, depth, samples',
  'All widths (vector and scalar tails), heights, kernels and strides.',
  ["src/neon/vertical_u16_lb.rs", "src/neon/vertical_u16_lb_f16.rs", "src/neon/vertical_u16.rs", "src/neon/rgba_u16_lb.rs", "src/dispatch_group_u16.rs", "src/handler_provider.rs"])
p('u16 results on AArch64 stay in the bit depth',
  'On AArch64 every sample a u16 resize writes is at most 2^bit_depth - 1, whatever the source samples.',
  'every accepted u16 call, depth and samples',
  'Needs every sample value, also values above the depth.',
  ["src/neon/vertical_u16_lb.rs", "src/neon/vertical_u16_lb_f16.rs", "src/neon/vertical_u16.rs", "src/neon/rgba_u16_lb.rs", "src/dispatch_group_u16.rs", "src/handler_provider.rs"])
p('Horizontal u16 resizes on AArch64 are exact fixed point',
  "On AArch64, up to 12 bits, a resize that keeps the height gives the weighted sum of each pixel's row and channel rounded to nearest; halves go down in RGBA, up otherwise.",
  'every accepted call of depth at most 12 that keeps the height',
  'Tap groups of 8, 4, 2, 1 and groups of four rows; all widths.',
  ["src/neon/vertical_u16_lb.rs", "src/neon/vertical_u16_lb_f16.rs", "src/neon/vertical_u16.rs", "src/neon/rgba_u16_lb.rs", "src/dispatch_group_u16.rs", "src/handler_provider.rs"])
p('Horizontal u16 resizes on AArch64 equal the portable code',
  'On AArch64, up to 12 bits, a resize that keeps the height gives the picture of the portable code.',
  'every accepted call of depth at most 12 that keeps the height',
  'Needs all pictures.',
  ["src/neon/vertical_u16_lb.rs", "src/neon/vertical_u16_lb_f16.rs", "src/neon/vertical_u16.rs", "src/neon/rgba_u16_lb.rs", "src/dispatch_group_u16.rs", "src/handler_provider.rs"])
p('Vertical u16 resizes on AArch64 use their own column',
  'On AArch64, up to 12 bits, a resize that keeps the width computes each sample from its own column, rounded to nearest.',
  'every accepted call of depth at most 12 that keeps the width',
  'Depends on row length modulo 16; all widths.',
  ["src/neon/vertical_u16_lb.rs", "src/neon/vertical_u16_lb_f16.rs", "src/neon/vertical_u16.rs", "src/neon/rgba_u16_lb.rs", "src/dispatch_group_u16.rs", "src/handler_provider.rs"])
p('Channels of u16 images do not mix on AArch64',
  'On AArch64 every sample of a u16 resize is computed from samples of its own channel only.',
  'every accepted u16 call of depth at most 12',
  'All widths, heights and channel counts.',
  ["src/neon/vertical_u16_lb.rs", "src/neon/vertical_u16_lb_f16.rs", "src/neon/vertical_u16.rs", "src/neon/rgba_u16_lb.rs", "src/dispatch_group_u16.rs", "src/handler_provider.rs"])
p('Rows of one value stay rows of one value in u16 resizes on AArch64',
  'On AArch64, if every source row holds one value, so does every row of a resize that keeps the width - at every depth, with and without half precision.',
  'every accepted u16 call that keeps the width',
  'Vector and scalar columns must agree for every width and value.',
  ["src/neon/vertical_u16_lb.rs", "src/neon/vertical_u16_lb_f16.rs", "src/neon/vertical_u16.rs", "src/neon/rgba_u16_lb.rs", "src/dispatch_group_u16.rs", "src/handler_provider.rs"])
p('Deep horizontal u16 resizes on AArch64 equal the portable code',
  'On AArch64, above 12 bits, a resize that keeps the height gives the same picture as the portable code compiled with fused multiply-add.',
  'every accepted call of depth above 12 that keeps the height',
  'Needs all pictures and sizes.',
  ["src/neon/vertical_u16_lb.rs", "src/neon/vertical_u16_lb_f16.rs", "src/neon/vertical_u16.rs", "src/neon/rgba_u16_lb.rs", "src/dispatch_group_u16.rs", "src/handler_provider.rs"])
p('Deep vertical u16 resizes on AArch64 are accurate',
  'On AArch64, above 12 bits, a resize that keeps the width is within 1/2 plus the binary32 summation error of the exact clamped weighted sum of the column.',
  'every accepted call of depth above 12 that keeps the width, rows of a multiple of 16, at most 4, or 8 samples (for other rows see C182)',
  'All windows, weights and samples.',
  ["src/neon/vertical_u16_lb.rs", "src/neon/vertical_u16_lb_f16.rs", "src/neon/vertical_u16.rs", "src/neon/rgba_u16_lb.rs", "src/dispatch_group_u16.rs", "src/handler_provider.rs"])
p('Half precision vertical u16 resizes on AArch64 are accurate to binary16',
  'On AArch64 with half precision, up to 12 bits, a resize that keeps the width is within 1/2 plus the binary16 summation error of the exact clamped weighted sum of the column.',
  'every accepted call of depth at most 12 that keeps the width, rows of a multiple of 16, at most 4, or 8 samples, sums that fit binary16',
  'All windows, weights and samples.',
  ["src/neon/vertical_u16_lb.rs", "src/neon/vertical_u16_lb_f16.rs", "src/neon/vertical_u16.rs", "src/neon/rgba_u16_lb.rs", "src/dispatch_group_u16.rs", "src/handler_provider.rs"])
p('Half precision does not change u16 results',
  'On AArch64 a u16 resize gives the same picture whether or not the CPU and the workload strategy select half precision.',
  'every accepted u16 call',
  'Needs all depths and pictures.',
  ["src/neon/vertical_u16_lb.rs", "src/neon/vertical_u16_lb_f16.rs", "src/neon/vertical_u16.rs", "src/neon/rgba_u16_lb.rs", "src/dispatch_group_u16.rs", "src/handler_provider.rs"])
p('Vertical u16 resizes on AArch64 equal the portable code',
  'On AArch64, up to 12 bits without half precision, a resize that keeps the width gives the picture of the portable code.',
  'every accepted call of depth at most 12 that keeps the width',
  'Needs all pictures.',
  ["src/neon/vertical_u16_lb.rs", "src/neon/vertical_u16_lb_f16.rs", "src/neon/vertical_u16.rs", "src/neon/rgba_u16_lb.rs", "src/dispatch_group_u16.rs", "src/handler_provider.rs"])
p('RGBA16 with premultiplication is premultiply, resize, divide on AArch64',
  'On AArch64, at any depth, with and without half precision, resize_rgba16 with premultiply_alpha = true returns Ok without leaving a buffer, keeps row padding, and is the plain resize of the source (constant alpha) or of its premultiplied copy (alpha varies), unpremultiplied; alpha is as the plain resize left it.',
  'every accepted RGBA16 call, depth and picture (alpha check exact up to 32768 pixels per row)',
  'The composition covers all sizes, alphas and depths.',
  ["src/scaler.rs", "src/neon/alpha_u16.rs", "src/neon/rgba_u16_lb.rs", "src/neon/vertical_u16.rs", "src/neon/vertical_u16_lb.rs", "src/neon/vertical_u16_lb_f16.rs"])
p('The alpha channel of an RGBA16 resize on AArch64 does not depend on premultiplication',
  'On AArch64 resize_rgba16 stores the same alpha in every pixel with premultiply_alpha = true and = false, at any depth.',
  'every accepted RGBA16 call',
  'Needs all pictures and sizes, also rows whose trailing columns read other columns.',
  ["src/scaler.rs", "src/neon/alpha_u16.rs", "src/neon/rgba_u16_lb.rs", "src/neon/vertical_u16.rs", "src/neon/vertical_u16_lb.rs", "src/neon/vertical_u16_lb_f16.rs"])
p('Colours of an RGBA16 resize with premultiplication on AArch64 are colour over alpha',
  'On AArch64 every colour of an RGBA16 resize with premultiply_alpha = true is the resized premultiplied colour over the resized alpha, within the depth.',
  'every accepted RGBA16 call',
  'Needs every colour, alpha and depth.',
  ["src/scaler.rs", "src/neon/alpha_u16.rs", "src/neon/rgba_u16_lb.rs", "src/neon/vertical_u16.rs", "src/neon/vertical_u16_lb.rs", "src/neon/vertical_u16_lb_f16.rs"])
p('Packed 10-bit resizing on AArch64 never leaves its buffers and keeps padding',
  'On AArch64, with and without the rdm extension and for either workload strategy, resize_ar30 / resize_ra30 return Ok for every accepted call, no read or write leaves a buffer, every pixel gets alpha 3 and the row padding of the destination is kept.',
  'every accepted resize_ar30 / resize_ra30 call on AArch64, both byte orders; every table the filter gives',
  'All sizes, strides, window lengths and leftover rows and columns.',
  ["src/resize_ar30.rs", "src/dispatch_group_ar30.rs", "src/neon/ar30.rs", "src/neon/horizontal_ar30.rs", "src/neon/horizontal_ar30_rdm.rs", "src/neon/vertical_ar30.rs", "src/neon/vertical_ar30_rdm.rs"])
p('Errors of packed 10-bit resizing on AArch64',
  'On AArch64 resize_ar30 / resize_ra30 return Ok exactly for non-zero representable sizes with well laid out buffers; otherwise the documented error and an untouched destination.',
  'every call',
  'All sizes and layouts.',
  ["src/resize_ar30.rs", "src/dispatch_group_ar30.rs", "src/neon/ar30.rs", "src/neon/horizontal_ar30.rs", "src/neon/horizontal_ar30_rdm.rs", "src/neon/vertical_ar30.rs", "src/neon/vertical_ar30_rdm.rs"])
p('Packed 10-bit column resizing on AArch64 is the portable one up to one unit',
  'Without rdm (or with PreferQuality), at equal widths, each component on AArch64 is the fixed-point weighted sum rounded half down, equal to the portable result or one below it.',
  'every accepted resize_ar30 / resize_ra30 call on AArch64, both byte orders at equal widths',
  'All rows, windows and colours.',
  ["src/resize_ar30.rs", "src/dispatch_group_ar30.rs", "src/neon/ar30.rs", "src/neon/horizontal_ar30.rs", "src/neon/horizontal_ar30_rdm.rs", "src/neon/vertical_ar30.rs", "src/neon/vertical_ar30_rdm.rs"])
p('Packed 10-bit resizing on AArch64 applies the filter separably',
  "Without rdm each component is the vertical filter followed by the horizontal filter on the window's pixels.",
  'every accepted resize_ar30 / resize_ra30 call on AArch64, both byte orders',
  'All windows and sizes.',
  ["src/resize_ar30.rs", "src/dispatch_group_ar30.rs", "src/neon/ar30.rs", "src/neon/horizontal_ar30.rs", "src/neon/horizontal_ar30_rdm.rs", "src/neon/vertical_ar30.rs", "src/neon/vertical_ar30_rdm.rs"])
p('Flat rows keep their colour in packed 10-bit resizing on AArch64',
  "Without rdm, at equal heights, a row of one colour is resized to that colour times the window's weight sum, rounded half down: the portable result or one below it, whatever the window length.",
  'every accepted resize_ar30 / resize_ra30 call on AArch64, both byte orders at equal heights; every row constant',
  'All windows, colours and sizes.',
  ["src/resize_ar30.rs", "src/dispatch_group_ar30.rs", "src/neon/ar30.rs", "src/neon/horizontal_ar30.rs", "src/neon/horizontal_ar30_rdm.rs", "src/neon/vertical_ar30.rs", "src/neon/vertical_ar30_rdm.rs"])
p('Packed 10-bit resizing on AArch64 is local per component',
  'On AArch64, with and without rdm, a component of an output pixel depends only on the same component of the source pixels in its two windows, not on padding, other components, the destination or strides.',
  'every pair of accepted calls of the same sizes',
  'Quantifies over pairs of pictures.',
  ["src/resize_ar30.rs", "src/dispatch_group_ar30.rs", "src/neon/ar30.rs", "src/neon/horizontal_ar30.rs", "src/neon/horizontal_ar30_rdm.rs", "src/neon/vertical_ar30.rs", "src/neon/vertical_ar30_rdm.rs"])
p('Packed 10-bit column resizing with rdm stays within one unit',
  'With rdm and PreferSpeed, at equal widths, with windows of up to 64 rows whose scaled sums fit 16 bits, each component is within one unit of the exactly rounded weighted sum.',
  'every accepted resize_ar30 / resize_ra30 call on AArch64, both byte orders at equal widths with fitting windows',
  'All windows, rows and colours.',
  ["src/resize_ar30.rs", "src/dispatch_group_ar30.rs", "src/neon/ar30.rs", "src/neon/horizontal_ar30.rs", "src/neon/horizontal_ar30_rdm.rs", "src/neon/vertical_ar30.rs", "src/neon/vertical_ar30_rdm.rs"])
p('White stays white in packed 10-bit column resizing with rdm',
  'With rdm and PreferSpeed, at equal widths, a white packed 10-bit image stays white.',
  'every accepted resize_ar30 / resize_ra30 call on AArch64, both byte orders at equal widths',
  'All filters and heights.',
  ["src/resize_ar30.rs", "src/dispatch_group_ar30.rs", "src/neon/ar30.rs", "src/neon/horizontal_ar30.rs", "src/neon/horizontal_ar30_rdm.rs", "src/neon/vertical_ar30.rs", "src/neon/vertical_ar30_rdm.rs"])
p('Packed 10-bit row resizing with rdm stays within one unit',
  'With rdm and PreferSpeed, at equal heights, each component is within one unit of the exactly rounded weighted sum.',
  'every accepted resize_ar30 / resize_ra30 call on AArch64, both byte orders at equal heights',
  'All windows and colours.',
  ["src/resize_ar30.rs", "src/dispatch_group_ar30.rs", "src/neon/ar30.rs", "src/neon/horizontal_ar30.rs", "src/neon/horizontal_ar30_rdm.rs", "src/neon/vertical_ar30.rs", "src/neon/vertical_ar30_rdm.rs"])
p('Equal rows give equal rows in packed 10-bit resizing on AArch64',
  'Without rdm, at equal heights, two source rows of equal colours, of the same or of different pictures, at any position, are resized to the same row.',
  'every pair of accepted calls and rows',
  'Pairs of rows in pictures of any height, including leftover rows of blocks of four.',
  ["src/resize_ar30.rs", "src/dispatch_group_ar30.rs", "src/neon/ar30.rs", "src/neon/horizontal_ar30.rs", "src/neon/horizontal_ar30_rdm.rs", "src/neon/vertical_ar30.rs", "src/neon/vertical_ar30_rdm.rs"])
p('Equal rows give equal rows in packed 10-bit resizing with rdm',
  'With rdm and PreferSpeed, at equal heights, two source rows of equal colours are resized to the same row.',
  'every pair of accepted calls and rows',
  'Pairs of rows in pictures of any height.',
  ["src/resize_ar30.rs", "src/dispatch_group_ar30.rs", "src/neon/ar30.rs", "src/neon/horizontal_ar30.rs", "src/neon/horizontal_ar30_rdm.rs", "src/neon/vertical_ar30.rs", "src/neon/vertical_ar30_rdm.rs"])
p('Threads do not change results on x86',
  'On x86_64 with any of the SSE4.1, AVX2 and FMA code paths, resize of 8-bit, 16-bit, f32 and packed 10-bit images returns the same value and writes the same destination under every threading policy and every thread schedule as the sequential code.',
  'every call, policy, pool and interleaving of the row tasks',
  'Schedules cannot be enumerated; the row tasks of a pool interleave arbitrarily.',
  ["src/threading_policy.rs", "src/scaler.rs", "src/dispatch_group_u8.rs", "src/dispatch_group_u16.rs", "src/dispatch_group_f32.rs", "src/dispatch_group_ar30.rs", "src/nearest_sampler.rs"])
p('Threads do not change results on AArch64',
  'On AArch64, with and without rdm and fp16, resize of 8-bit, 16-bit, f32 and packed 10-bit images returns the same value and writes the same destination under every threading policy and every thread schedule as the sequential code.',
  'every call, policy, pool and interleaving of the row tasks',
  'Schedules cannot be enumerated.',
  ["src/threading_policy.rs", "src/scaler.rs", "src/dispatch_group_u8.rs", "src/dispatch_group_u16.rs", "src/dispatch_group_f32.rs", "src/dispatch_group_ar30.rs", "src/nearest_sampler.rs"])
p('Threads do not change results with alpha on x86',
  "On x86_64 a resize of RGBA8, RGBA16 and RGBA f32 images with premultiplication gives the same under every threading policy and thread schedule, including the loops that run on rayon's global pool.",
  'every call, policy, pool and interleaving of the row tasks',
  'Schedules cannot be enumerated.',
  ["src/threading_policy.rs", "src/scaler.rs", "src/dispatch_group_u8.rs", "src/dispatch_group_u16.rs", "src/dispatch_group_f32.rs", "src/dispatch_group_ar30.rs", "src/nearest_sampler.rs", "src/sse/alpha_u8.rs", "src/sse/alpha_u16.rs", "src/sse/alpha_f32.rs", "src/avx2/alpha_u8.rs", "src/avx2/alpha_u16.rs", "src/avx2/alpha_f32.rs"])
p('Threads do not change results with alpha on AArch64',
  'On AArch64 a resize of RGBA8, RGBA16 and RGBA f32 images with premultiplication gives the same under every threading policy and thread schedule.',
  'every call, policy, pool and interleaving of the row tasks',
  'Schedules cannot be enumerated.',
  ["src/threading_policy.rs", "src/scaler.rs", "src/dispatch_group_u8.rs", "src/dispatch_group_u16.rs", "src/dispatch_group_f32.rs", "src/dispatch_group_ar30.rs", "src/nearest_sampler.rs", "src/neon/alpha_u8.rs", "src/neon/alpha_u16.rs", "src/neon/alpha_f32.rs"])
p('ThreadingPolicy::Single needs no threads',
  'Under ThreadingPolicy::Single a resize does not use any thread pool of the process, so it gives the same result even when no thread can be started.',
  'every call on x86 under Single, whatever the global pool does',
  'Ranges over all behaviours of the environment.',
  ["src/threading_policy.rs", "src/scaler.rs", "src/dispatch_group_u8.rs", "src/dispatch_group_u16.rs", "src/dispatch_group_f32.rs", "src/dispatch_group_ar30.rs", "src/nearest_sampler.rs", "src/sse/alpha_u8.rs", "src/sse/alpha_u16.rs", "src/sse/alpha_f32.rs", "src/avx2/alpha_u8.rs", "src/avx2/alpha_u16.rs", "src/avx2/alpha_f32.rs"])
p('Packed 10-bit copies and Nearest ignore the vector code',
  'On x86_64 and AArch64 packed 10-bit resizing between equal sizes and with Nearest is the portable call; in particular an accepted Nearest resize to fewer than four rows reports success and writes nothing there too.',
  'every call with equal sizes or Nearest',
  'All sizes, strides and buffers.',
  ["src/resize_ar30.rs", "src/nearest_sampler.rs"])
p('Brighter in, brighter out on x86',
  'On x86_64, for every CPU and workload strategy, resizing 8-bit images with a filter that has no negative weights is monotone: raising source samples never lowers a destination sample. (With the low precision strategy, when the 16-bit accumulators cannot overflow, and for RGBA alpha windows of more than eight taps when the paired weights fit, as stated in the theorem.)',
  'every pair of images ordered samplewise, every size, CPU and strategy',
  'Ranges over all pairs of pictures and all sizes; a test compares a few.',
  ["src/sse", "src/avx2", "src/plane_u8.rs", "src/rgb_u8.rs", "src/rgba_u8.rs", "src/cbcr8.rs", "src/handler_provider.rs", "src/dispatch_group_u8.rs", "src/support.rs"])
p('Brighter in, brighter out on AArch64',
  'On AArch64, with and without rdm and for every strategy, resizing 8-bit images with a filter that has no negative weights is monotone in the source samples.',
  'every pair of images ordered samplewise, every size and strategy',
  'Ranges over all pairs of pictures and all sizes.',
  ["src/neon", "src/plane_u8.rs", "src/rgb_u8.rs", "src/rgba_u8.rs", "src/cbcr8.rs", "src/handler_provider.rs", "src/dispatch_group_u8.rs", "src/support.rs"])
p("Portable results stay in the source's range",
  'With a support-two averaging filter of at most 124 taps the portable 8-bit resize keeps every channel between the smallest and largest source sample of that channel, except that a change of height may give one below the smallest.',
  'every image, size, channel and bounds',
  'All pictures and sizes.',
  ["src/handler_provider.rs", "src/dispatch_group_u8.rs", "src/support.rs"])
p("x86 results stay in the source's range",
  "On x86_64 with such a filter PreferQuality keeps every channel within the source's range, and PreferSpeed (at most 40 taps) exceeds the largest sample by at most one for each dimension that changes and never goes below the smallest.",
  'every image, size, channel and bounds',
  'All pictures and sizes; rounding excess appears on particular weights only.',
  ["src/sse", "src/avx2", "src/plane_u8.rs", "src/rgb_u8.rs", "src/rgba_u8.rs", "src/cbcr8.rs", "src/handler_provider.rs", "src/dispatch_group_u8.rs", "src/support.rs"])
p("AArch64 results stay in the source's range",
  "On AArch64 with such a filter the 32-bit handlers keep every channel within the source's range; the rdm handlers (at most 40 taps) exceed the largest sample by at most one for each dimension that changes.",
  'every image, size, channel and bounds',
  'All pictures and sizes.',
  ["src/neon", "src/plane_u8.rs", "src/rgb_u8.rs", "src/rgba_u8.rs", "src/cbcr8.rs", "src/handler_provider.rs", "src/dispatch_group_u8.rs", "src/support.rs"])
p('Accuracy of the portable 8-bit resize',
  "For every filter whose table weights lie in [-1, 1], each sample of a portable 8-bit resize is within an explicit bound of the exact separable convolution with the kernel weights: one half (horizontal) or one (vertical) plus n*255/2^15 for n taps per pass, the first pass' error carried through the second.",
  'every image, size, filter and sample',
  'Numeric error has to be bounded for all pictures.',
  ["src/handler_provider.rs", "src/dispatch_group_u8.rs", "src/support.rs"])
p('Accuracy of the x86 8-bit resize',
  'On x86_64 each sample of an 8-bit resize is within an explicit bound of the exact separable convolution: one half plus n*255/2^15 per pass with PreferQuality, one half plus n/128 + n*255/2^15 + 63/64*(A + n/2^15) with PreferSpeed, A the sum of the absolute weights.',
  'every image, size, filter and sample',
  'Numeric error has to be bounded for all pictures.',
  ["src/sse", "src/avx2", "src/plane_u8.rs", "src/rgb_u8.rs", "src/rgba_u8.rs", "src/cbcr8.rs", "src/handler_provider.rs", "src/dispatch_group_u8.rs", "src/support.rs"])
p('Accuracy of the AArch64 8-bit resize',
  'On AArch64 each sample of an 8-bit resize is within an explicit bound of the exact separable convolution, with the pass errors of x86 PreferQuality for the 32-bit handlers and of PreferSpeed for the rdm handlers.',
  'every image, size, filter and sample',
  'Numeric error has to be bounded for all pictures.',
  ["src/neon", "src/plane_u8.rs", "src/rgb_u8.rs", "src/rgba_u8.rs", "src/cbcr8.rs", "src/handler_provider.rs", "src/dispatch_group_u8.rs", "src/support.rs"])
p('PreferSpeed against PreferQuality',
  'On x86_64 with AVX2 and an averaging filter of at most 40 taps the default strategy gives samples at most two below and four above those of PreferQuality, and at most one below and two above when one dimension changes.',
  'every image, size and sample',
  'All pictures and sizes; a test compares a few.',
  ["src/sse", "src/avx2", "src/plane_u8.rs", "src/rgb_u8.rs", "src/rgba_u8.rs", "src/cbcr8.rs", "src/handler_provider.rs", "src/dispatch_group_u8.rs", "src/support.rs"])
p('x86 against the portable code',
  'With an averaging filter of at most 124 taps the AVX2 code with PreferQuality gives samples never below those of the portable code and at most two above; at most one above if only the height changes and equal if only the width changes.',
  'every image, size and sample',
  'Needs two builds and all pictures.',
  ["src/sse", "src/avx2", "src/plane_u8.rs", "src/rgb_u8.rs", "src/rgba_u8.rs", "src/cbcr8.rs", "src/handler_provider.rs", "src/dispatch_group_u8.rs", "src/support.rs"])
p('x86 against AArch64',
  'With an averaging filter of at most 124 taps the AArch64 32-bit handlers and the AVX2 code with PreferQuality agree up to one per dimension that changes, the AArch64 result never being the larger (RGBA; RGB and planes when only the height changes; rows without the three tap tail).',
  'every image, size and sample',
  'Needs two machines and all pictures.',
  ["src/sse", "src/avx2", "src/plane_u8.rs", "src/rgb_u8.rs", "src/rgba_u8.rs", "src/cbcr8.rs", "src/handler_provider.rs", "src/dispatch_group_u8.rs", "src/support.rs", "src/neon", "src/plane_u8.rs", "src/rgb_u8.rs", "src/rgba_u8.rs", "src/cbcr8.rs", "src/handler_provider.rs", "src/dispatch_group_u8.rs", "src/support.rs"])
p('AVX-512 convolution equals AVX2',
  'With the nightly AVX-512 feature every 8-bit resize gives bit for bit what it gives on the same CPU without it, unless the image is RGBA, the width changes and the CPU has AVX-VNNI.',
  'every CPU, strategy, size, channel count and image the call accepts',
  "All images and sizes; the AVX-512 code is not run by the project's CI.",
  ["src/avx512", "src/handler_provider.rs", "src/rgba_u8.rs", "src/alpha_handle_u8.rs", "src/image_store.rs"])
p('AVX-512 memory safety',
  'With the AVX-512 feature every accepted 8-bit resize returns Ok, reads and writes only inside its buffers and keeps row padding, VNNI handlers included.',
  'every CPU with AVX2, strategy, size and image',
  'Masked loads and tails at every width.',
  ["src/avx512", "src/handler_provider.rs", "src/rgba_u8.rs", "src/alpha_handle_u8.rs", "src/image_store.rs"])
p('VNNI sample values',
  'On a CPU with AVX-VNNI an RGBA8 resize that changes the width gives the separable fixed point sums rounded to nearest, except in the last height mod 4 rows, where windows of at most four taps start from another rounding bias.',
  'every image, size and sample',
  'All sizes; no test compares the tail rows.',
  ["src/avx512", "src/handler_provider.rs", "src/rgba_u8.rs", "src/alpha_handle_u8.rs", "src/image_store.rs"])
p('Equal source rows give equal rows with VNNI',
  'If two rows of an RGBA8 image are equal, a resize of the width gives equal rows.',
  'every image and pair of rows',
  'Depends on the row number modulo four.',
  ["src/avx512", "src/handler_provider.rs", "src/rgba_u8.rs", "src/alpha_handle_u8.rs", "src/image_store.rs"])
p('VNNI against AVX2',
  'With PreferQuality a sample of the VNNI code is the sample of the AVX2 code or one less, and equal in whole groups of four rows and for windows of more than four taps.',
  'every RGBA8 image, size and sample',
  'Numerical relation over all inputs.',
  ["src/avx512", "src/handler_provider.rs", "src/rgba_u8.rs", "src/alpha_handle_u8.rs", "src/image_store.rs"])
p('AVX-512 premultiplication equals AVX2',
  'Premultiplying an RGBA8 image with AVX-512 gives exactly the image of the AVX2 code.',
  'every pair of equally sized images and strides',
  'All widths: masked tails of 64 bytes.',
  ["src/avx512", "src/handler_provider.rs", "src/rgba_u8.rs", "src/alpha_handle_u8.rs", "src/image_store.rs"])
p('AVX-512 unpremultiplication equals AVX2',
  'Unpremultiplying an RGBA8 image with AVX-512, with or without VBMI, gives exactly what the AVX2 code gives with the same reciprocal approximations; colours are within 3/5 of 255c/a except colours above 128 with alpha 1.',
  'every image, stride and reciprocal instruction within its specification',
  'All pixels and widths; two data rearrangements selected at run time.',
  ["src/avx512", "src/handler_provider.rs", "src/rgba_u8.rs", "src/alpha_handle_u8.rs", "src/image_store.rs"])
p('AVX-512 alpha check',
  'The check that decides whether premultiplication is needed answers yes iff two pixels of the image differ in alpha.',
  'every RGBA8 image less than 2^24 pixels wide',
  'Depends on which column differs, at every width.',
  ["src/avx512", "src/handler_provider.rs", "src/rgba_u8.rs", "src/alpha_handle_u8.rs", "src/image_store.rs"])
p('AVX-512 alpha pipeline',
  'An RGBA8 resize with premultiplication on AVX-512 is: premultiply if alpha varies, plain resize, divide by alpha; it returns Ok, stays in its buffers, keeps padding and equals the result of the AVX2 alpha handlers.',
  'every image, size, strategy and CPU',
  'Composition of every step over all inputs.',
  ["src/avx512", "src/handler_provider.rs", "src/rgba_u8.rs", "src/alpha_handle_u8.rs", "src/image_store.rs"])
p('AVX-512 16-bit memory safety',
  'With the AVX-512 feature every accepted resize of a u16 image of any depth returns Ok, stays inside its buffers and keeps row padding; avx512vnni does not change the result, and above 12 bits or if only the width changes the result is that of the CPU without AVX-512.',
  'every CPU, depth, size, channel count and image',
  'Masked tails at every width; two instruction variants chosen at run time.',
  ["src/avx512/vertical_u16_lb.rs", "src/handler_provider.rs"])
p('AVX-512 low bit depth values',
  'With AVX-512 a resize of a u16 image of at most 12 bits gives for every width the separable rounded fixed point convolution, each sample from its own column.',
  'every image, size, channel count and sample',
  'All widths: the SSE4.1 and AVX2 code get most of them wrong (C77).',
  ["src/avx512/vertical_u16_lb.rs", "src/handler_provider.rs"])
p('AVX-512 low bit depth range',
  'With AVX-512 samples within a depth of at most 12 bits stay within it.',
  'every image, size and sample',
  'Overshoot of any filter on any picture.',
  ["src/avx512/vertical_u16_lb.rs", "src/handler_provider.rs"])
p('f16 memory safety on AArch64',
  "On AArch64 every accepted resize of an f16 image returns Ok, stays inside its buffers and keeps the destination's size and stride, whatever the CPU's f16 features and the workload strategy.",
  'every CPU feature set, workload, size, stride, channel count, image and arithmetic',
  'Unaligned pointer loads of 8, 4, 2 and 1 halves at every width, stride and window; three instruction variants.',
  ["src/f16.rs", "src/neon/rgb_f16.rs", "src/neon/rgba_f16.rs", "src/neon/vertical_f16.rs", "src/neon/rgb_f16_fhm.rs", "src/neon/rgba_f16_fhm.rs", "src/neon/vertical_f16_fhm.rs", "src/neon/rgb_f16_full.rs", "src/neon/rgba_f16_full.rs", "src/neon/vertical_f16_full.rs", "src/neon/convolve_f16.rs", "src/neon/f16_utils.rs", "src/neon/weights.rs"])
p('f16 row padding on AArch64',
  'A resize of an f16 image on AArch64 writes nothing but pixels.',
  'every CPU, workload, size, stride, channel count and image',
  'Strides other than the width, on every path.',
  ["src/f16.rs", "src/neon/rgb_f16.rs", "src/neon/rgba_f16.rs", "src/neon/vertical_f16.rs", "src/neon/rgb_f16_fhm.rs", "src/neon/rgba_f16_fhm.rs", "src/neon/vertical_f16_fhm.rs", "src/neon/rgb_f16_full.rs", "src/neon/rgba_f16_full.rs", "src/neon/vertical_f16_full.rs", "src/neon/convolve_f16.rs", "src/neon/f16_utils.rs", "src/neon/weights.rs"])
p('f16 values on AArch64',
  'On AArch64 every destination sample of a one-, two- or three-channel f16 image is the separable resize of its channel: sums of fused multiply-adds from left to right in binary32, with table weights (rounded to halves with fhm), or in halves in the fast vertical pass.',
  'every CPU, workload, filter, size, image and sample',
  'Every window size and position: steps of 4, 2 and 1 taps, vertical blocks of 48, 32, 16, 8 and a tail.',
  ["src/f16.rs", "src/neon/rgb_f16.rs", "src/neon/rgba_f16.rs", "src/neon/vertical_f16.rs", "src/neon/rgb_f16_fhm.rs", "src/neon/rgba_f16_fhm.rs", "src/neon/vertical_f16_fhm.rs", "src/neon/rgb_f16_full.rs", "src/neon/rgba_f16_full.rs", "src/neon/vertical_f16_full.rs", "src/neon/convolve_f16.rs", "src/neon/f16_utils.rs", "src/neon/weights.rs"])
p('f16 RGBA values on AArch64',
  'On AArch64 every destination sample of an f16 RGBA image is the separable resize of its channel.',
  'every CPU, workload, filter, size, image and sample',
  'The misplaced tap shows only where the fourth pixel of a window step differs from the second.',
  ["src/f16.rs", "src/neon/rgb_f16.rs", "src/neon/rgba_f16.rs", "src/neon/vertical_f16.rs", "src/neon/rgb_f16_fhm.rs", "src/neon/rgba_f16_fhm.rs", "src/neon/vertical_f16_fhm.rs", "src/neon/rgb_f16_full.rs", "src/neon/rgba_f16_full.rs", "src/neon/vertical_f16_full.rs", "src/neon/convolve_f16.rs", "src/neon/f16_utils.rs", "src/neon/weights.rs"])
p('f16 RGB values on AArch64 when speed is preferred',
  'With fp16 and PreferSpeed every destination sample of an f16 RGB image is the separable resize of its channel.',
  'every filter, size, image and sample',
  'Channel mixing is invisible on grey pictures.',
  ["src/f16.rs", "src/neon/rgb_f16.rs", "src/neon/rgba_f16.rs", "src/neon/vertical_f16.rs", "src/neon/rgb_f16_fhm.rs", "src/neon/rgba_f16_fhm.rs", "src/neon/vertical_f16_fhm.rs", "src/neon/rgb_f16_full.rs", "src/neon/rgba_f16_full.rs", "src/neon/vertical_f16_full.rs", "src/neon/convolve_f16.rs", "src/neon/f16_utils.rs", "src/neon/weights.rs"])
p('f16 locality on AArch64',
  'On AArch64 an f16 destination sample depends only on the source samples of its own channel in its window.',
  'every CPU, workload, pair of images, size and sample',
  'Needs pairs of pictures that agree exactly on a window.',
  ["src/f16.rs", "src/neon/rgb_f16.rs", "src/neon/rgba_f16.rs", "src/neon/vertical_f16.rs", "src/neon/rgb_f16_fhm.rs", "src/neon/rgba_f16_fhm.rs", "src/neon/vertical_f16_fhm.rs", "src/neon/rgb_f16_full.rs", "src/neon/rgba_f16_full.rs", "src/neon/vertical_f16_full.rs", "src/neon/convolve_f16.rs", "src/neon/f16_utils.rs", "src/neon/weights.rs"])
p('f16 equal rows on AArch64',
  'On AArch64 equal source rows of an f16 image give equal destination rows when only the width changes.',
  'every CPU, workload, image, size and pair of rows',
  'Rows are handled in groups of four by other code than single rows.',
  ["src/f16.rs", "src/neon/rgb_f16.rs", "src/neon/rgba_f16.rs", "src/neon/vertical_f16.rs", "src/neon/rgb_f16_fhm.rs", "src/neon/rgba_f16_fhm.rs", "src/neon/vertical_f16_fhm.rs", "src/neon/rgb_f16_full.rs", "src/neon/rgba_f16_full.rs", "src/neon/vertical_f16_full.rs", "src/neon/convolve_f16.rs", "src/neon/f16_utils.rs", "src/neon/weights.rs"])
p('f16 accuracy on AArch64',
  'On AArch64 every f16 destination sample is finite and close to the exact weighted sum: one binary32 rounding per tap and one half rounding per pass, or one half rounding per tap when speed is preferred.',
  'every CPU, workload, filter, size, image and sample',
  'Error accumulation over every window size and every picture.',
  ["src/f16.rs", "src/neon/rgb_f16.rs", "src/neon/rgba_f16.rs", "src/neon/vertical_f16.rs", "src/neon/rgb_f16_fhm.rs", "src/neon/rgba_f16_fhm.rs", "src/neon/vertical_f16_fhm.rs", "src/neon/rgb_f16_full.rs", "src/neon/rgba_f16_full.rs", "src/neon/vertical_f16_full.rs", "src/neon/convolve_f16.rs", "src/neon/f16_utils.rs", "src/neon/weights.rs"])
p('f16 premultiplication on AArch64',
  'On AArch64 premultiplying a finite f16 RGBA image gives every colour as the half nearest to its exact product with alpha, keeps alpha and row padding.',
  'every CPU feature set, size, stride, image and sample',
  'All pairs of colour and alpha patterns at every column; products are rounded twice in one variant, once in the other.',
  ["src/alpha_handle_f16.rs", "src/neon/alpha_f16.rs", "src/neon/alpha_f16_full.rs", "src/neon/f16_utils.rs"])
p('f16 unpremultiplication on AArch64: frame',
  'On AArch64 unpremultiplying any f16 RGBA image returns normally, stays inside the buffer, keeps the bits of every alpha and all padding.',
  'every CPU feature set, size, stride and image, infinities and NaN included',
  'Tails through a zero-padded buffer at every width.',
  ["src/alpha_handle_f16.rs", "src/neon/alpha_f16.rs", "src/neon/alpha_f16_full.rs", "src/neon/f16_utils.rs"])
p('f16 unpremultiplication on AArch64: value',
  'On AArch64 unpremultiplying a finite f16 RGBA image divides every colour by alpha to within half rounding, and gives 0 where alpha is 0.',
  'every CPU feature set, size, stride, image and sample',
  'All pairs of patterns; behaviour differs between CPUs.',
  ["src/alpha_handle_f16.rs", "src/neon/alpha_f16.rs", "src/neon/alpha_f16_full.rs", "src/neon/f16_utils.rs"])
p('f16 premultiplication is the same everywhere',
  'Premultiplying a finite f16 RGBA image gives bit for bit the same image on every AArch64 CPU and on x86 CPUs with F16C or without SSE4.1.',
  'every pair of CPUs, size, stride and image',
  'Needs several machines and all pairs of patterns.',
  ["src/alpha_handle_f16.rs", "src/neon/alpha_f16.rs", "src/neon/alpha_f16_full.rs", "src/neon/f16_utils.rs", "src/sse/alpha_f16.rs", "src/avx2/alpha_f16.rs"])
p('f16 resize with alpha on AArch64: composition',
  'On AArch64 an f16 RGBA resize with premultiply_alpha returns Ok, stays in its buffers, and is premultiplication into a copy, the plain resize, and unpremultiplication.',
  'every CPU, workload, filter, size, stride and image',
  'Composition over every accepted call.',
  ["src/alpha_handle_f16.rs", "src/neon/alpha_f16.rs", "src/neon/alpha_f16_full.rs", "src/neon/f16_utils.rs", "src/scaler.rs", "src/f16.rs", "src/image_store.rs"])
p('f16 alpha channel on AArch64 does not depend on premultiply_alpha',
  'On AArch64 the alpha channel of an f16 RGBA resize is the same with and without premultiply_alpha.',
  'every CPU, workload, filter, size and finite image',
  'Relates two calls on every input.',
  ["src/alpha_handle_f16.rs", "src/neon/alpha_f16.rs", "src/neon/alpha_f16_full.rs", "src/neon/f16_utils.rs", "src/scaler.rs", "src/f16.rs", "src/image_store.rs"])
p('f16 colours of an AArch64 resize with alpha',
  'On AArch64 with premultiply_alpha every colour of an f16 result is the resized premultiplied colour divided by the resized alpha, and 0 where that alpha is 0.',
  'every CPU, workload, filter, size, finite image and sample',
  'Rounding of resized alphas to 0 is rare in test pictures.',
  ["src/alpha_handle_f16.rs", "src/neon/alpha_f16.rs", "src/neon/alpha_f16_full.rs", "src/neon/f16_utils.rs", "src/scaler.rs", "src/f16.rs", "src/image_store.rs"])
p('Moving the picture moves the result',
  'When the ratio of source to output size is P / 2^t, moving an 8-bit source by P m pixels moves the result by exactly 2^t m pixels, wherever the windows stay inside the picture.',
  'every filter (Area: reductions), shift, size with such a ratio, image, stride and sample; rows and columns; binary32 weights and fixed point',
  'Relates two calls; weights are computed in floating point at every position.',
  ["src/scaler.rs", "src/filter_weights.rs", "src/sampler.rs"])
p('No pixel the kernel weighs is left out',
  "The window of an output pixel contains every source pixel to which the filter's kernel, stretched by the reduction ratio, gives a non-zero weight.",
  'every filter, pair of sizes and output coordinate',
  'All ratios and coordinates; a dropped tap changes pictures slightly and only at some coordinates.',
  ["src/scaler.rs", "src/filter_weights.rs", "src/sampler.rs"])
p('Bilinear enlargement is linear interpolation',
  'Enlarging with Bilinear gives at every output pixel the linear interpolation between the two nearest source pixel centres, rounded.',
  'every enlargement, image and output pixel',
  'All ratios, positions and pictures.',
  ["src/scaler.rs", "src/filter_weights.rs", "src/sampler.rs"])
p('Box and Area reductions average blocks',
  "Dividing a size by a whole number n with Box or Area gives the mean of each block of n pixels, as documented for Area (OpenCV's INTER_AREA).",
  'every n, size, image and output pixel',
  'All sizes and pictures.',
  ["src/scaler.rs", "src/filter_weights.rs", "src/sampler.rs", "README.md"])
p('Mirror images',
  'Resizing the mirror image of a picture gives the mirror image of the resized picture.',
  'every filter, pair of sizes and image, left to right and top to bottom',
  'Relates two calls on every input and size.',
  ["src/scaler.rs", "src/filter_weights.rs", "src/sampler.rs"])
p('C functions on f16 images',
  "A C call on f16 samples with aligned pointers and strides of whole samples ends normally, returns 0 or the code of the Rust call's error, leaves the bytes of the Rust result in the destination rows, and leaves the bytes behind the rows, and on an error all bytes, untouched.",
  'every processor (x86, aarch64), channel count, filter, flags, picture, stride, address and call, accepted or not',
  'All sizes, strides, memory contents and processors.',
  ["picscale/src/lib.rs", "src/scaler_f16.rs", "src/scaler.rs"])
p('C functions on vector processors',
  'C calls on 8- and 16-bit samples do on processors with vector instructions what the Rust call does there: same code, same bytes, nothing else written.',
  'every x86 and aarch64 processor, channel count, depth, filter, flags, picture and stride',
  'All sizes, strides, memory contents and processors.',
  ["picscale/src/lib.rs", "src/scaler.rs", "src/scaler_u16.rs", "src/handler_provider.rs"])
p('Kernels reproduce polynomials',
  'The interpolation kernels, with their full radius and in exact arithmetic, add up to one at every position, keep linear gradients, and for Catmull-Rom, Bicubic and Lagrange keep polynomials of higher degree.',
  'every kernel of the filter table that is not a window or a sinc, every position, every polynomial of the degree',
  'All rational positions and polynomials.',
  ["src/math/bc_spline.rs", "src/math/cubic.rs", "src/math/quadric.rs", "src/math/spline_n.rs", "src/math/lagrange.rs", "src/math/bilinear.rs", "src/math/bartlett.rs"])
p('Interpolating kernels keep the samples',
  "At a source pixel's own position an interpolating kernel gives that pixel weight one and every other pixel weight zero.",
  'every interpolating kernel, every signal, every position',
  'All signals and positions.',
  ["src/math/bc_spline.rs", "src/math/spline_n.rs", "src/math/lagrange.rs", "src/math/hann.rs", "src/math/bessel_order_one.rs", "src/math/lanczos.rs", "src/sampler.rs"])
p('Nearer pixels contribute no less',
  'If the centre of one source pixel is no farther from the centre of a destination pixel than that of another, brightening the first brightens the destination pixel no less than brightening the second.',
  'every filter, pair of sizes, destination pixel and pair of source pixels',
  'All sizes, positions and values.',
  ["src/scaler.rs", "src/sampler.rs", "src/math/bartlett.rs", "src/math/bessel_order_one.rs", "src/math/lanczos.rs"])
p('Splines with a fixed kernel decimate',
  'Reducing by an odd whole number with Spline16, Spline36 or Spline64 returns the middle pixel of every block and ignores all others; reducing the height darkens every non-black sample by one.',
  'every 8-bit picture, channel count and odd ratio',
  'All sizes, ratios and sample values.',
  ["src/sampler.rs", "src/scaler.rs", "src/math/spline_n.rs"])
p('Colours of invisible pixels do not bleed (integer samples)',
  'With premultiplication requested, the colours hidden under fully transparent pixels have no effect at all on the result of a resize: two RGBA pictures that differ only in them are resized to the same picture.',
  'every pair of 8-bit or 16-bit RGBA pictures that differ only in colours of pixels of alpha 0 and have a visible pixel, every filter but Nearest, every size change, every processor without AVX-512',
  'All pictures, hidden colours, sizes and filters.',
  ["src/scaler.rs", "src/alpha_handle_u8.rs", "src/alpha_handle_u16.rs", "src/alpha_check.rs", "src/avx2/alpha_u8.rs", "src/neon/alpha_u8.rs"])
p('Colours of invisible pixels do not bleed (floating point samples)',
  'The same for RGBA pictures of f32 and f16 samples with finite colours.',
  'every pair of f32 or f16 RGBA pictures that differ only in colours of pixels of alpha 0 and have a visible pixel, every filter but Nearest, every size change, x86 and AArch64',
  'All pictures, hidden colours, sizes and filters.',
  ["src/scaler.rs", "src/alpha_handle_f32.rs", "src/alpha_handle_f16.rs", "src/alpha_check.rs"])
p('Colours of invisible pixels do not bleed (AVX-512)',
  'The same for 8-bit RGBA pictures on processors with AVX-512.',
  'every pair of 8-bit RGBA pictures that differ only in colours of pixels of alpha 0',
  'All pictures, hidden colours, sizes and filters.',
  ["src/avx512/check_alpha.rs", "src/alpha_check.rs", "src/scaler.rs"])
p('The Kaiser window is computed in bounded time',
  'The series of the Kaiser window ends after at most sixteen terms for every distance; the weight lies between 0 and 1, is positive inside the window, zero outside, and never grows with the distance.',
  'every distance and every square root function that is monotone and bounded on [0, 1]',
  'All binary32 distances.',
  ["src/math/kaiser.rs"])
p('Cubic filters, fixed splines and enlargements never overflow',
  'The absolute quantised weights of a window add up to at most eight times the unit: for the cubic filters (Cubic, MitchellNetravalli, CatmullRom, Hermite, BSpline, Bicubic, Robidoux, RobidouxSharp) with up to 32768 source pixels, for Spline16/36/64, and for every filter when the image is not reduced. No 32-bit accumulator wraps around for 8-, 10- and 12-bit samples, and an accepted 8-bit resize gives exactly the two-pass fixed point result.',
  'every filter named, every pair of sizes in range, every picture, every scale',
  'Overflow needs particular sizes and pictures; windows can have tens of thousands of taps of both signs.',
  ["src/scaler.rs", "src/filter_weights.rs", "src/math/bc_spline.rs", "src/math/cubic.rs"])
p('Cubic filters are what they are named after',
  'At every distance each cubic kernel, as computed in binary32, is within 2^-11 of the member of the Mitchell-Netravali family with the published parameters.',
  'every distance (of either sign)',
  'All distances.',
  ["src/math/bc_spline.rs", "src/math/cubic.rs"])
p('Cubic filter weights add up to one',
  'For every cubic filter and every pair of sizes up to 32768 source pixels, the binary32 weights of a destination coordinate with n taps (of both signs) add up to one up to (5 n + 7) 2^-24: no brightness is lost or gained, however much negative lobes cancel.',
  'every cubic filter, every pair of sizes, every destination coordinate',
  'All sizes; cancellation among thousands of signed taps.',
  ["src/scaler.rs", "src/math/bc_spline.rs", "src/math/cubic.rs"])
p('Uniform 8-bit images keep their value under cubic filters',
  'A picture of one value v, resized with a cubic filter, is a picture of value v (v - 1 is allowed where the height changes).',
  'every cubic filter, every value, every pair of sizes, every stride and channel count',
  'All sizes and values.',
  ["src/scaler.rs", "src/filter_weights.rs", "src/math/bc_spline.rs", "src/math/cubic.rs"])
p('Uniform f32 pictures keep their value',
  'A picture of one finite value v, resized with an averaging filter of support two or a cubic filter, gives samples equal to v up to (120 n + 400) 2^-24 |v| (plus an underflow term of the order of 2^-140), n the size of the largest window: on every x86 CPU, with and without FMA, and on AArch64.',
  'both filter families, every value, every pair of sizes up to 32768, every channel count, every CPU',
  'All sizes and values; errors of thousands of roundings accumulate.',
  ["src/scaler.rs", "src/floating_point_horizontal.rs", "src/floating_point_vertical.rs", "src/sse", "src/avx2", "src/neon"])
p('Brighter f32 pictures give brighter results',
  'With a filter without negative weights, raising samples of a floating point picture never lowers a sample of the result, rounding included: on every x86 CPU (also the portable code), with and without FMA, and on AArch64.',
  'every pair of pictures related sample by sample, every averaging filter, all sizes and channel counts, every CPU',
  'Every picture and size; rounding happens at each of thousands of additions in CPU-dependent order.',
  ["src/scaler.rs", "src/floating_point_horizontal.rs", "src/floating_point_vertical.rs", "src/sse", "src/avx2", "src/neon"])
p('Negated f32 pictures give negated results',
  'Changing the sign of every sample of a floating point picture changes the sign of every sample of the result and nothing else: every filter, every x86 CPU, with and without FMA, and AArch64.',
  'every picture, filter, size, channel count and CPU',
  'Every picture; relies on symmetric rounding at every step of every handler.',
  ["src/scaler.rs", "src/sse", "src/avx2", "src/neon"])
p('f32 results stay in the range of the source',
  'A floating point picture with samples from m to M, resized with an averaging filter of support two, gives samples between m and M up to (120 n + 400) 2^-24 of them (n the size of the largest window); without negative samples in the source there are none in the result, exactly.',
  'every picture and range, all sizes up to 32768, every channel count and CPU',
  "Every picture; the error of the weights' sum and of thousands of roundings has to be bounded.",
  ["src/scaler.rs", "src/sse", "src/avx2", "src/neon"])
p('Brighter u16 pictures of up to 12 bits give brighter results',
  'With a filter without negative weights, raising samples of a u16 picture of at most 12 bits (samples within the depth) never lowers a sample of the result: on every x86 CPU without AVX-512, with AVX-512, and on AArch64 without half precision arithmetic.',
  'every pair of ordered pictures, every averaging filter, size and channel count',
  'Every picture; some handlers read other columns than their own, yet the order has to survive.',
  ["src/scaler.rs", "src/sse/vertical_u16_lb.rs", "src/avx2/vertical_u16_lb.rs", "src/neon/vertical_u16.rs", "src/dispatch_group_u16.rs"])
p('Brighter u16 pictures of more than 12 bits give brighter results',
  'With an averaging filter, raising samples of a u16 picture of 13 to 16 bits never lowers a sample of the result: on AArch64 (any size), and on every x86 CPU for support-two filters and up to 32768 rows and columns, where the conversions to 32-bit integers cannot overflow.',
  'every pair of ordered pictures of 16-bit samples, every filter as said, every size and channel count',
  'Every picture; single precision sums in several orders, with taps that meet other pixels, rounded in three ways.',
  ["src/scaler.rs", "src/sse/vertical_u16.rs", "src/sse/rgba_u16.rs", "src/neon/vertical_u16.rs", "src/rgba_u16.rs"])
p('How far a resize looks',
  "Which source pixels can influence a result pixel, filter by filter: at most half the kernel's width (2, 3, 4 or 6 pixels by filter, times the reduction ratio except for the fixed splines) plus one pixel from its centre; when a direction is not reduced, at most as many pixels of it as the kernel is wide. Pictures that agree there give the same result pixel, whatever is elsewhere.",
  'every filter, every pair of pictures with sizes up to 32768, every result pixel; 8-bit on portable code, x86 and AArch64, f32 on x86 and AArch64',
  "Every position and size; the window's ends are computed with rounded single precision arithmetic.",
  ["src/scaler.rs", "src/sampler.rs"])
p('u16 results of up to 12 bits stay in the range of the source',
  'A u16 picture of at most 12 bits with samples from m to M, resized with an averaging filter of support two with windows of at most n taps, gives samples from m(1-e)^2 - 2 to (M+1)(1+e)^2, e = (130 n + 261)/2^23: for 16 taps at most four levels below m and three above M (m = M: uniform pictures).',
  'every picture and range, all sizes and channel counts, windows up to 32768 taps, x86 CPUs without and with AVX-512, AArch64 without half precision',
  'Every picture; the quantised weights do not add up to one and both passes round.',
  ["src/scaler.rs", "src/dispatch_group_u16.rs", "src/sse/vertical_u16_lb.rs", "src/avx2/vertical_u16_lb.rs", "src/neon/vertical_u16_lb.rs"])
p('The negative of a picture gives the negative of the result',
  'Replacing every sample v by white - v replaces every sample of the result by white minus it, up to 3 levels (8-bit, portable code), 2 levels (8-bit, x86 with PreferQuality, and the 32-bit AArch64 handlers), or H((1+e)^2-1) + 2(1+e) + 1 levels (u16 of up to 12 bits, white H, e = (130 n + 261)/2^23; less than 6 for windows of 16 taps; 1+e less with AVX-512), with an averaging filter of support two.',
  'every picture, all sizes and channel counts, windows up to 124 taps (8-bit) or any number (u16)',
  'Every picture and its negative; truncation treats them differently in every pass.',
  ["src/scaler.rs", "src/dispatch_group_u8.rs", "src/dispatch_group_u16.rs", "src/sse", "src/avx2", "src/neon"])
with open(os.path.join(os.path.dirname(os.path.abspath(__file__)), "..", "properties.jsonl"), "w") as f:
    for q in P:
        f.write(json.dumps(q) + "\n")
print(len(P))
