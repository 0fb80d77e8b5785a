# DESIGN — formal model of pic-scale in Lean 4

## What is modelled

The subject is pic-scale 0.5.5 (`/repo/src`). The model is a set of total, executable Lean
functions that follow the Rust source function by function; every definition cites the file and
lines it models. Buffers are `List`s. A function taking `&mut [T]` returns the new list. Slice
indexing that panics in Rust (`&src[a..b]`) is `slice?`, which returns `none`, so a model result
`some r` also says "no panic, no out-of-bounds access". Iterator chains over
`chunks_exact(_mut)`/`zip`/`take` are recursive functions with the same truncation rules.

Files (under `lean/Verif/`):

| file | models |
|---|---|
| `Model/Slices.lean` | `chunks_exact`, slicing, in-place row updates |
| `Model/Store.lean` | `image_store.rs`, `support.rs`, `pic_scale_error.rs`, `threading_policy.rs` |
| `Model/F32.lean` | IEEE-754 binary32 rounding (round-to-nearest-even, subnormals; no overflow, no NaN) over `ℚ` |
| `Model/Weights.lean` | `Scaler::generate_weights`, `FilterWeights::numerical_approximation` |
| `Model/Kernels.lean` | polynomial kernels in `math/` and the filter table of `sampler.rs` (generated by `tools/gen_kernels.py`) |
| `Model/Pass.lean` | loop skeletons shared by the fixed and floating point handlers |
| `Model/Fixed.lean` | `fixed_point_horizontal.rs`, `fixed_point_vertical.rs`, `saturate_narrow.rs` |
| `Model/Floating.lean` | `floating_point_horizontal.rs`, `floating_point_vertical.rs` over any float arithmetic |
| `Model/Formats.lean` | u16 and f32 formats: `mixed_storage.rs`, `mlaf.rs`, `dispatch_group_u16/f32.rs` |
| `Model/Dispatch.lean` | `dispatch_group_u8/u16/f32.rs`, sequential arms |
| `Model/Nearest.lean` | `nearest_sampler.rs` |
| `Model/Resize.lean` | `Scaler::generic_resize`, `generic_resize_with_alpha` |
| `Model/Alpha.lean` | `alpha_handle_u8/u16/f32.rs`, `alpha_check.rs` |
| `Model/Ar30.lean` | `ar30.rs`, `fixed_point_*_ar30.rs`, `dispatch_group_ar30.rs`, `resize_ar30.rs` |
| `Model/Sched.lean` | the parallel arms of all dispatchers, pools as arbitrary interleavings |
| `Model/Simd.lean` | the x86 intrinsics used, lane by lane, and unchecked loads/stores (out of bounds = `none`) |
| `Model/SimdVertical.lean` | `sse/vertical_u8.rs`, `avx2/vertical_u8.rs` and their `_lp` variants |
| `Model/SimdHorizontal.lean` | `sse/` and `avx2/` `plane_u8`, `cbcr8`, `rgb_u8`, `rgba_u8`, `rgba_u8_lb` |
| `Model/X86.lean` | selection of handlers on x86 (`plane_u8.rs`, `cbcr8.rs`, `rgb_u8.rs`, `rgba_u8.rs`, `handler_provider.rs`) |
| `Model/AlphaX86.lean`, `SpecAlphaX86.lean` | `sse/alpha_u8.rs`, `avx2/alpha_u8.rs`, `sse/check_alpha.rs`, `avx2/check_alpha.rs` and their selection; their specification |
| `Model/AlphaX86U16.lean` | `sse/alpha_u16.rs`, `avx2/alpha_u16.rs` and their selection |
| `Model/AlphaX86F32.lean` | `sse/alpha_f32.rs`, `avx2/alpha_f32.rs` and their selection |
| `Model/X86U16.lean`, `SpecX86U16.lean` | the SIMD passes for u16 images: `sse/` and `avx2/` `vertical_u16_lb`, `rgba_u16_lb`, `sse/vertical_u16`, `sse/rgba_u16`, their selection; which column/tap they read |
| `Model/X86F32.lean`, `SpecX86F32.lean`, `SpecFloatErr.lean` | f32 passes on x86: `src/sse/{vertical,plane,rgb,rgba}_f32.rs`, `src/avx2/{vertical,rgba}_f32.rs`, selection in `src/{plane,cbcr,rgb,rgba}_f32.rs`. Arbitrary arithmetic for C87, C92–C94; binary32 on finite rationals (unbounded exponent, no signed zero) for the value theorems |
| `Model/Colors.lean` | `src/colors/*.rs` (nine colour-space scalers), trait `Scaling`; conversions of `colorutils_rs` are per-pixel parameters |
| `SpecColors.lean`, `Lemmas/Colors.lean`, `Props/Colors.lean`, `Props/AlphaF32Resize.lean` | C96-C107 |
| `Model/X86Ar30.lean` | `src/sse/horizontal_ar30.rs`, `src/sse/vertical_ar30.rs`, the unzip/zip helpers, and `resize_ar30` on `x86_64` |
| `SpecX86Ar30.lean`, `Lemmas/X86Ar30*.lean`, `Props/X86Ar30.lean` | C108-C114 |
| `Lemmas/WeightBounds.lean`, `Lemmas/WeightCentre.lean`, `Props/WeightBounds.lean` | C115-C118 (binary32 error analysis of the weight tables) |
| `Model/F16.lean`, `Model/F16Bits.lean` | 16-bit float images: portable, SSE4.1 and AVX2 handlers over arbitrary conversions (`f16.rs`, `sse/*_f16.rs`, `avx2/*_f16.rs`, `dispatch_group_f16.rs`); half and single bit patterns and the fallback conversions of `sse/f16_utils.rs` |
| `SpecF16.lean` | order of sums per CPU, half rounding error, finite halves |
| `Model/Division.lean` | divisions the code guards against a zero divisor: the result for zero is an unspecified (opaque) number |
| `Model/AlphaF16.lean` | alpha handling of RGBA f16 images: portable, SSE4.1 (with and without F16C), AVX2 (`alpha_handle_f16.rs`, `sse/alpha_f16.rs`, `avx2/alpha_f16.rs`) |
| `Model/Neon.lean`, `Model/NeonU8.lean` | the AArch64 handlers of 8-bit images (32-bit and `rdm`) and their selection (`src/neon/*_u8*.rs`, `src/{plane_u8,cbcr8,rgb_u8,rgba_u8}.rs`); `SpecNeon.lean` is their rounding |
| `Model/NeonAlpha.lean` | RGBA8 alpha handlers and the RGBA8/RGBA16 alpha checks on AArch64 (`src/neon/{alpha_u8,check_alpha}.rs`); `SpecNeonAlpha.lean` is their vocabulary
| `Model/NeonAlphaU16.lean`, `Model/NeonAlphaF32.lean` | RGBA16 and RGBA f32 alpha handlers on AArch64 (`src/neon/{alpha_u16,alpha_f32}.rs`)
| `Model/NeonF32.lean` | f32 convolution on AArch64 (`src/neon/{vertical,plane,rgb,rgba}_f32.rs`)
| `Props/NeonAlphaF32Resize.lean` | RGBA f32 resize with alpha on AArch64
| `Model/NeonU16.lean`, `SpecNeonU16.lean`, `Lemmas/NeonU16*.lean`, `Props/NeonU16.lean`, `Props/NeonU16Accuracy.lean` | u16 convolution on AArch64
| `Props/NeonAlphaU16Resize.lean` | RGBA16 resize with alpha on AArch64
| `Props/NeonAr30.lean` | Packed 10-bit resizing on AArch64, with and without rdm
| `Props/SchedVector.lean` | Thread schedules and the vector code; `Single` and rayon's global pool
| `SpecExact.lean` | The exact separable resize and the error budget of two passes
| `Props/VectorRange.lean` | Monotonicity and range of the 8-bit resize on every platform
| `Props/VectorAccuracy.lean` | Distance from the exact resize on every platform
| `Props/VectorAgree.lean` | Distance between platforms and strategies
| `Model/Avx512.lean`, `Model/Avx512Alpha.lean` | AVX-512 and AVX-VNNI code of 8-bit images (feature `nightly_avx512`)
| `SpecAvx512.lean` | The fixed point sum with another bias
| `Props/Avx512.lean`, `Props/Avx512Alpha.lean` | AVX-512 and VNNI against AVX2
| `Model/Avx512U16.lean` | The AVX-512 column handler of u16 images up to 12 bits
| `Props/Avx512U16.lean` | u16 images with AVX-512
| `Model/NeonF16.lean` | f16 convolutions on AArch64: base, fhm and full variants
| `SpecNeonF16.lean` | What they compute
| `Props/NeonF16.lean` | f16 images on AArch64
| `Model/NeonAlphaF16.lean` | f16 alpha handling on AArch64
| `Props/NeonAlphaF16.lean` | f16 alpha on AArch64
| `Props/NeonAlphaF16Resize.lean` | f16 resizes with alpha on AArch64
| `SpecGeometry.lean` | geometry of a resize along one dimension
| `Lemmas/Dyadic.lean` | windows and weights at ratios P / 2^t
| `Lemmas/BilinearRows.lean` | Bilinear rows at enlargements by powers of two
| `Lemmas/BoxRows.lean` | Box and Area rows at whole-number reductions
| `Props/Geometry.lean` | shifts, extent of windows, Bilinear enlargement
| `Props/GeometryBox.lean` | Box and Area, mirror images
| `Model/CApiF16.lean` | the C functions on f16 samples and on vector processors
| `Props/CApiF16.lean` | C253, C254
| `SpecKernels.lean` | interpolation with a kernel, reproduction of polynomials
| `Lemmas/Moments.lean`, `Lemmas/KernelMoments.lean` | moments of the kernels
| `Lemmas/NearTaps.lean` | kernels that do not grow with the distance, under rounding
| `Props/Kernels.lean` | C255, C256
| `Props/Taps.lean`, `Props/OddReduction.lean` | C257, C258
| `SpecNoBleed.lean` | pictures that differ in the colours of invisible pixels only
| `Lemmas/NoBleed.lean`, `Props/NoBleed.lean` | C259, C260, C261
| `Model/Kaiser.lean`, `SpecKaiser.lean`, `SpecAverages.lean` | the Kaiser window and its series; bounds on the mathematical library; averaging filters
| `Lemmas/Kaiser.lean`, `Props/Kaiser.lean`, `Props/KaiserResize.lean` | C262; Kaiser, Hamming, Hanning and Gaussian as averaging filters
| `SpecRinging.lean`, `Lemmas/Ringing.lean`, `Lemmas/RingingKernels.lean`, `Props/Ringing.lean` | C263: signed weights in binary32; the cubic kernels
| `SpecCubics.lean`, `Props/CubicKernels.lean` | the Mitchell-Netravali family; C264
| `Lemmas/RingingSums.lean`, `Props/CubicFlat.lean` | C265, C266: sums of signed weights; pictures of one value with cubic filters
| `SpecFlat.lean`, `Props/FlatF32.lean` | C267: uniform f32 pictures
| `SpecOrder.lean`, `Lemmas/Relate.lean`, `Props/OrderF32.lean` | C268 - C270: order, sign and range of f32 results
| `Props/OrderU16.lean`, `Props/OrderU16Deep.lean` | C271, C272: order of u16 results |
| `SpecReach.lean`, `Props/Reach.lean` | C273: how far a resize looks |
| `Props/RangeU16.lean` | C274: range of u16 results |
| `Props/Negative.lean` | C275: negatives |
| `Model/CApi.lean`, `SpecCApi.lean` | the C interface (`picscale/src/lib.rs`) over byte memory; its specification |
| `Spec.lean`, `Spec*.lean` | independent specifications: pixels of a buffer, weighted sums, rounding, tables, alpha, accuracy bounds, packed pixels |
| `Lemmas/*.lean` | proofs that the model meets the specifications |
| `Props/*.lean` | the property theorems, each with a non-vacuity `example` |

## How each property is handled

* **C01** model of the constructors; direct proof of the iff.
* **C02** the code violates it (`validate` compares the raw field): negation with a witness, plus the
  partial theorem for images with non-zero stride or width 0.
* **C03, C04** decision logic of `generic_resize`(`_with_alpha`) as a function
  `Image → Image → Except Error Image × Image`; proved by cases.
* **C05** `overflowing_mul` over an arbitrary modulus `W`.
* **C06** violated: witness sizes; partial theorem when one dimension shrinks.
* **C07** row-zip copy refines the pixelwise spec for all strides.
* **C08** violated by the same-size branch and Nearest: negations; partial theorem for the
  convolution branches.
* **C09–C12** Nearest: index function in binary32; in-range for sizes ≤ 2^24; negation beyond;
  monotonicity; negations for strides and for centre sampling.
* **C13–C16** `generate_weights` over binary32 rounding and an arbitrary kernel function. C13: the Area
  kernel only for outputs up to 2^22. C15: in exact arithmetic (rounding = identity) for all kernels,
  with the raw sum non-zero; negation for Bartlett 1→3. C16: Hermite is negative past 1 in the code
  (negation).
* **C17** quantisation.
* **C18–C22, C25, C26** refinement of the batched/unrolled/blocked passes to the per-pixel spec.
* **C20** violated: the vertical pass truncates (witness).
* **C23** clamping. **C24** partial-sum bounds over i32.
* **C27, C51** a pool is an arbitrary interleaving of the element accesses of all row tasks. Invariant:
  running the rest of task `t` on its chunk of the current memory gives what running the whole task on
  its chunk of the initial memory gives. Hence every outcome equals the sequential loop (C27), lifted
  through the dispatchers to whole resizes. Termination: multiset of remaining programs under
  `CutExpand`.
* **C28** arithmetic of `thread_count`.
* **C29** order preservation of the spec. **C30** violated (witness); exact bounds as partial.
* **C31** integer arithmetic for all products. **C32** violated on the scalar path (alpha is
  squared): negation + partial (colours). **C33** table: partial for p ≤ a; negation for p > a.
* **C34** arithmetic bound. **C35** violated: negations and partials. **C36** exact arithmetic.
* **C37** xor-accumulation ⇔ non-constant alpha. **C38** violated: witness; partial for opaque images.
* **C39** bit-level. **C40, C41** violated: witnesses; partials for 4-row groups and 2, 3, 4, 6 pixel
  windows. Nearest on packed images writes nothing below four rows.
* **C42, C43** finite tables lifted to all inputs. **C44** violated for padded images: witness; partial.
* **C45** float passes over an arbitrary multiply-add primitive in which adding a product to zero gives
  that product (IEEE: up to the sign of a zero).
* **C46** the alpha pipeline as a composition of its specifications. **C47** per depth arithmetic.
* **C48** error analysis of one pass against the exact rational sum.
* **C49, C50** refinement of `resize_ar30` to three independent 10-bit channels; its checks.

* **C51** schedules: termination, progress and disjointness of the row tasks.
* **C52** each vector handler is shown to be total on valid tables, lifted to `generic_resize`. **C57**
  selection tables, with the exact condition under which an unsupported handler is chosen.
* **C53, C54** each handler row is shown equal to an abstract row value (exact: `round(Σ w p / 2^15)`;
  low precision: `Spec.fixedLow`), machine wrap-around discharged by the no-overflow conditions.
* **C55, C56, C58** congruence theorems over the abstract row values; witnesses for the violations.
* **C59** the aligned case of the C wrapper decodes exactly the rows, the Rust call keeps the length of the
  buffer, and encoding writes them back; schedule independence comes from C27.
* **C60** chunk-by-chunk reading of an unaligned source equals the packed samples when size = channels;
  witnesses for everything else.
* **C61, C62, C66** each vector chunk is shown to act pixel by pixel; the remainder chunk (copied to a stack
  buffer) likewise; error bounds from the rounding of the product and the documented accuracy of the
  reciprocal instruction. AVX2 violations: witnesses for every such instruction.
* **C63** composition of C61, C52/C53/C54 and C62 through `generic_resize_with_alpha`. **C64** wrapped
  32-bit sums equal the sums while rows are short enough; witness beyond. **C65** error propagation.
* **C67–C72** as C61/C62 for RGBA16: the integer divisions are shown exact for all products by arithmetic; the
  binary32 ones by rounding error analysis. Violations: general theorems for C68, C71, evaluated witnesses for C69, C72.
* **C73–C75** the float chunks (deinterleave, lane-wise operation, interleave) act pixel by pixel; rows are chunks and a
  scalar remainder; error of one division, or of a reciprocal and a product. C75: witness.
* **C76–C86** every block of the u16 handlers is shown to produce one abstract value per position (`Lemmas/X86U16*`),
  the chunk loops are unfolded into "which column is read" (`Spec.readColumn`), the rows are lifted through the
  dispatchers, and whole resizes are composed from position functions (`Lemmas/X86Fun`). Violations: evaluated witnesses.

* **C87–C95** f32 passes on x86. Each handler is proved to compute, for any arithmetic, the sum described in
  SpecX86F32 (left-to-right chain, AVX2 pair of half sums, one-channel quadruple of lanes), by loop invariants
  over lanes; `resize_fun` composes passes. C87 and C94 follow directly, C92/C93 by comparing the group-of-four and
  single-row sums, C88/C89/C95 by rewriting the sums to the portable left-to-right sum, C90/C91 by an error
  calculus (`Near`) that counts levels and roundings of any summation tree. C91, C93, C95 are false of the
  code in general (witnesses evaluated in the kernel).

- **C96-C98** (RGBA f32 with alpha): the pipeline premultiply / resize / unpremultiply composed from C73, C87 and the unpremultiply lemma; C97 by locality (C94) of the alpha samples; C98 negated by a flat picture.
- **C99-C102** (colour scalers): the conversion loops are shown to be pixelwise maps (induction over pixels and rows), the inner call passes its checks, so the call is back-conversion of the ordinary resize of the converted picture; for padded images the same theorem with the unpadded reading, plus a witness. C101: `resize_rgba` is the same function for all transfer functions.
- **C103-C105**: all nine scalers are two programs (`mem_colourScalers`); equal sizes by the copy lemma, errors by case analysis of the call.
- **C106, C107** (locality): C94 transported through the conversions, and through premultiplication when the global alpha test has the same answer; otherwise a witness.

- **C108** (bounds): every load and store of the model is checked; the loops over 8, 4 and 1 pixels and over 8 columns are shown to succeed on every window of a valid table.
- **C109, C110, C112, C114**: the registers are computed symbolically (words, lanes), giving the exact pixel-to-weight pairing `Spec.tapPixel`, then refined to sums over components; C110 needs windows of at most four pixels, where the pairing is the identity, and has a witness otherwise.
- **C111**: the single-row handler's cut-off register has zero in the odd lanes and precision 16; the exact (wrong) value is proved and a witness given.
- **C113**: as C50.

- **C115**: relative error of a running binary32 sum of non-negative numbers (no underflow term: sums of multiples of the smallest subnormal are exact), Bernoulli's inequality up to 2^23 terms, rounding at most doubles, quantisation at most doubles and is zero below one half; hence sum of quantised weights at most 2^18.
- **C116, C117**: the same error analysis two-sided, plus: some tap lies within half a pixel of the rounded centre, so the raw sum is at least 1/8; quantised sums then differ from 2^15 by at most n/2 + 1 + (2n+5)/256.
- **C118**: violated; the Box table for one destination pixel is computed symbolically for every width (equal weights), its quantised weight is 0 from 65537 pixels on and 1 at 65536.

* C119–C121, C123: `Lemmas/F16.lean` (every handler block equals an f32 block on the widened source), `F16Pass`,
  `F16Fun` (both passes as functions of the picture, padding tracked separately).
* C122: the chain of vector multiply-adds is the left-to-right sum (`F16Value`). C124: error analysis of C90 plus one
  half rounding per pass. C125–C127: bit fields as div/mod (`F16Conv`), values of patterns monotone (`F16Bits`),
  midpoints (`F16Narrow`), IEEE narrowing (`F16Enc`).

* C128–C134: rows split into full chunks and a remainder (`premulRowH_ok`, `unpremulRowH_ok`), each chunk pixelwise by
  the deinterleaving lemmas of the 16-bit code; products of two halves are exact singles (`mul_halves`), so one rounding
  remains; pipeline by `withAlpha_compose`, alpha by locality (C123).

* C135–C137: `premultiply16_spec`/`unpremultiply16_spec` composed with `u16X86_raw` by `withAlpha_compose`; for C136 the
  column a handler reads belongs to the same channel (`readColumn_channel`), so alpha is a function of the source alphas.

* C138–C146: NEON registers are lists of lanes, saturating instructions are clamps. Each accumulation step is shown to add the
  right terms to the right lanes (`StepAdds`), loops by invariant; the saturating sums are exact while a budget of
  absolute weights holds (`TapOK`, `tapFold_eq`). Chunks of the vertical handlers go through `BlockOK`/`whileBlocks_from`
  with the weights actually used (`fullW`, `rdmW`), so that the wrong lanes of C140 and C143 are part of the value. Resizes by
  `convolve_abs`/`convolve_total`.
* C147–C154: `vld4`/`vst4` blocks are shown to be pixelwise; blocks plus remainder give a row function whose effect depends
  on the column only through `x < width / 16 * 16`. The reciprocal estimate (`FPRecipEstimate` of the Arm manual, modelled
  exactly) is bounded by evaluation at all 255 nonzero alphas, and an error analysis gives 5/4. Row sums are congruences modulo `2^32`.
  The whole call is composed from C151, C147, C138/C139 and C149.
* C155–C161: integer division by `2^n - 1` through rounding shifts is shown to be rounding division for all products; the f32
  path is bounded by relative rounding errors with a final round-to-nearest-ties-away; the half-precision path by the same
  calculus (`Rel δ x y`) at half-precision epsilon, with the reciprocal estimates of 1023 and 4095 evaluated.
* C162–C165: the NEON f32 blocks are pixelwise; rows are those of the SSE4.1 model, so C73–C75 carry over.
* C166–C174: the NEON f32 handlers are sequences of fused multiply-adds, so they reuse the lane invariants of C87–C95. The
  four-sample vertical block loads eight samples; the model keeps that load, so the in-bounds proofs need room for it
  (`EightReadable`), and its absence is a witness of an over-read. Values are shown equal to the portable fused code or to
  AVX2 + FMA, from which accuracy carries over.
* C175–C177: C96–C98 with the NEON convolution (C166–C174) and NEON alpha handlers (C162–C165).
* C178–C189: the NEON column handlers of u16 images are one generic block (`laneBlock`) with three lane arithmetics (32-bit saturating, binary16, binary32); each lane is a fold over the window (`laneBlock_ok`), turned into the specification under the no-overflow condition; accuracy by induction on the window (`tapH_near`). Half precision: sums of 65520 and more (infinity) are outside the model.
* C190–C192: C135–C137 with the NEON convolution (C178–C189) and NEON alpha handlers (C155–C161).
* C193–C203: NEON packed 10-bit passes (`Model/NeonAr30.lean`): 16-lane unzip of a row of words, plain i32 and rdm i16 accumulators, blocks of four rows, tails. Every pass is characterised as a function of the components of its windows (`resize30Neon_fun`); the plain pass reads windows through the permutation `tapNeon`, the rdm pass through `tapShuffled`.
* C204–C209: the vector passes behind a pool (`Model/SchedVector.lean`): every pass takes an optional pool, as in the source, and `Lemmas/Sched*.lean` show that every handler keeps the length of the row it is given, which is what makes the chunks of a parallel loop independent. Half-float passes (non-default feature) are not included.
* C210–C220: consequences of the value theorems of the 8-bit code (C21, C53, C54, C139, C142) for users: monotone, within the source's range, close to the exact resize (`SpecExact.lean`), and the platforms close to each other. Proved through per-pass inequalities on the fixed point sums (`Lemmas/VectorMono.lean`) and `separable`.
* C221–C229: the AVX-512/VNNI handlers of 8-bit images as functions on lists of bytes; the column pass and the alpha chunks are proved equal, pixel by pixel, to the AVX2 ones; the VNNI row pass gets its own values (`SpecAvx512.lean`). `_mm512_rcp14_ps` is an arbitrary reciprocal function as `rcpps`. Proved by the pass lemmas of x86 (`convolve_congr`, `PassPos`) and `Pixelwise` rearrangements.
* C230–C232: the AVX-512 u16 column handler as masked chunks of 32 samples in four lanes; proved to give each sample of its own column and put into the pass framework of u16 images (`PassFun`).
* C233–C240: the three NEON variants of the f16 code are one model over a record of arithmetic and load offsets (`NeonLanes`); loop invariants (`TapInv`) give which sample meets which weight (`rgbTap`, `rgbaTap`); then the pass framework. Misplaced taps are stated exactly and refuted by running the model on small pictures.
* C241–C247: blocks act lane by lane (`LaneBy`, `planes_pixelwise`), rows as chains of blocks (`chunksThen_ok`, `alphaChunks_ok`); products of halves are exact in binary32, so one rounding is left (`mul_halves`); quotients by rounding errors. Composition with C233, C238 for whole calls.
* C248–C252: at ratios `P / 2^t` (`DyadicRatio`) all coordinates are binary32 numbers, so window and distances are exact (`wCenter_eq`, `window_eq`, `dist_eq`); rows repeat with period `2^t` (`genRow_shift`); Bilinear and Box rows in closed form; lifted to pictures by `separable`. Where the code does not do what the property says, the negation with a witness for every library.
* C253, C254: every outcome (error, copy, Nearest, convolution) of the Rust call keeps the number of samples (`rustCallWith_ends`), from the accesses-in-bounds theorems of the formats; then memory is written back whole (`cResize_of_rust`). The specification `LikeRust` is in `SpecCApi.lean`.
* C255 – C258: polynomials are expanded around the position (`Polynomial.taylor`), so reproduction is a statement on finitely many moments, which are polynomial identities on the pieces of the kernel. C257: the kernels are antitone also after every rounding, and normalising, quantising and the fixed point sum are monotone. C258: at odd whole-number ratios all distances are whole and exact in binary32; the fixed spline kernels are 1 at 0 and 0 at the other whole distances, with binary32 rounding too.
* C259 – C261: two pictures that differ only under invisible pixels have the same alpha, so the alpha check decides alike; premultiplying makes them equal sample by sample (row padding is not copied into the work picture), and everything after that is a function of the premultiplied picture, whatever the passes are.
* C262: every step of the loop is monotone in the argument, also after rounding, so the loop ends no later than for the largest argument, 6.33, for which the kernel of Lean runs it. The model gives the loop fuel; a result does not depend on it.
* C263: a tap that is neither the first nor the last of its window lies within the first unit of the kernel, where a cubic kernel is not negative (up to rounding); so the negative weights of a window add up to at most 7/24, and the tap at the centre has at least 9/20. A running error analysis of the sum then bounds the absolute weights by 4.78 times the computed sum.
* C264: running error analysis of every operation of the kernels (`Calc`), and closeness of the computed coefficients to the published ones.
* C265: the absolute raw weights are at most 4.78 times the computed sum (C263), so the error of the running sum, of the reciprocal and of the products are all small relative to one.
* C266: reduced to half or less, two positions of a window lie within half a unit of the centre, so no normalised weight is near one and nothing is clamped; the sum of the quantised weights is then within 64 of 2^15 (C265), which keeps a flat picture. The negation is evaluated by the kernel.
* C267: the accuracy theorems of the f32 passes (C90, C91, C170) with the sums of the weights (C116, C265) and of their absolute values (at most 5).
* C268 - C270: every order of summation of the f32 handlers respects every relation between samples that rounded addition and multiplication by the weights respect (`Respects`); instances are the order (non-negative weights), negation and non-negativity. The range follows by comparing with uniform pictures (C267).
* C271, C272: the value of every u16 handler (C77 - C86, C180 - C189, C231) as a function of a whole row is monotone; `sepFun_relAll` composes the passes when the vertical one may read foreign columns. On x86 above 12 bits the sums are first bounded by 2^30 (weights of support-two filters add up to at most five in absolute value, summation error by C90), so `cvtps` does not overflow.
* C273: the rounded centre, radius and ends of a window against the real ones (`rnd_err_le`), then the locality theorems (C26, C58, C146, C94, C174) with the windows replaced by distances to the centre. The kernel widths are a table in `SpecReach.lean`.
* C274: the quantised weights of a window of n taps add up to 2^15 (1 +- e) (`quantised_near`); a pass with non-negative weights keeps [m, M] up to that and rounding (`fixedRound_range`, `fixedFloor_range`, `fixedHalfDown_range`), and two passes compose (`range_sepFun`).
* C275: a pass over two pictures whose samples add up to white (up to d) gives samples that add up to white up to He + d(1+e) + 2g, g the rounding of the pass; clamping does not spoil it (`clamp_opposite`, `opposite_pass`), and the deviation is a whole number (`Opposite.whole`).

No property is "not applicable". Properties that the code violates are recorded with a theorem
`..._violated` (a concrete witness evaluated in the model) and the strongest `..._partial` theorem.

`seeded/LOG.jsonl` records wrong programs tried against the theorems (`tools/mutate.py`).

## Trusted base

* Lean 4.33.0 kernel; the axioms `propext`, `Classical.choice`, `Quot.sound` only (no own axioms).
* The reading of the Rust code: the model is hand-written; nothing checks it against the binary.
* `usize` arithmetic is modelled by unbounded `Nat` except where a property is about overflow.
* Floating point: binary32 operations are `rnd(exact result)`, with `rnd` concrete
  round-to-nearest-even (24-bit significand, subnormals). Infinities, NaN and signed zero are not
  modelled; libm functions (`sin`, `cos`, `exp`, Bessel) appear only as an arbitrary kernel function.
* The rayon pool is modelled as an arbitrary interleaving of per-row tasks with sequentially consistent
  memory.
* x86: the lane-wise semantics of the intrinsics in `Model/Simd.lean`; the CPU is the pair (SSE4.1, AVX2);
  running a handler the CPU does not have is `none`; default crate features (`sse`, `avx`), without
  `nightly_avx512` except in C221–C232. Modelled for 8-bit, 16-bit and f32 samples (passes and alpha); fused multiply-add, `round_ps` and `cvtps_epi32`
  round to nearest even; `f64` division is correctly rounded (`rnd64`). The reciprocal
  approximation `rcpps` is an arbitrary function with the documented relative error (`ReciprocalInstruction`, a
  hypothesis of the theorems that use it).
* Not modelled: NEON code other than the 8-bit convolutions (`src/neon/*_u8*.rs`), the f32, u16 and f16 convolutions, the packed 10-bit passes, the alpha handlers and the alpha checks, AVX-512 code of `nightly_avx512fp16`, and WASM code. (WASM: `src/wasm32/alpha_u8.rs` does not compile, names that do not exist, and `vertical_u8.rs`
  loads 16 bits from a pointer made of a weight's value, undefined behaviour: there is no program to model.)
  For NEON intrinsics the semantics in `Model/Neon.lean` (lanes, saturation, `vqrdmlah`) are trusted to be Arm's. F16: the conversions `as f32`/`as f16` of the compiler and the
  F16C instructions are assumed to be the same IEEE conversions (`dec`, `enc`); NaN payloads are not modelled. Where
  they are selected, theorems about those formats are about the scalar fallback they replace. The
  conversions used by `colors/*` are in the external crate `colorutils_rs`: assumed to convert pixel by
  pixel with the strides given (`convertPixels`), a `u32` stride overflow is a panic.
  In the C interface source and destination do not overlap, `usize` arithmetic does not overflow.
