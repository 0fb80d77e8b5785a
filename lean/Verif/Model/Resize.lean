import Verif.Model.Dispatch
import Verif.Model.Kernels
import Verif.Model.Nearest

/-!
`Scaler::generic_resize` and `Scaler::generic_resize_with_alpha` (`src/scaler.rs:571-933`).

A call returns `none` if it panics, otherwise the `Result` together with the destination image after
the call. `W` is the number of values of `usize`.
-/

namespace PicScale

variable {S : Type}

/-- What `generic_resize` needs to know about the sample type `T` (trait implementations):
`VerticalConvolutionPass`, `HorizontalConvolutionPass`, `CheckStoreDensity`, `Default`. -/
structure Format (S : Type) where
  default : S
  shouldHaveBitDepth : Bool
  vertical : (src dst : Image S) → FilterWeights ℚ → Option (Image S)
  horizontal : (src dst : Image S) → FilterWeights ℚ → Option (Image S)

/-- The checks at the top of `generic_resize` (`src/scaler.rs:583-601`) and, identically, of
`generic_resize_with_alpha` (`:879-897`). -/
def checkResize (W N : ℕ) (bitDepthChecked : Bool) (store into : Image S) : Except Err Unit := do
  into.validate N
  store.validate N
  if store.width = 0 ∨ store.height = 0 ∨ into.width = 0 ∨ into.height = 0 then
    throw .zeroImageDimensions
  if checkImageSizeOverflow W store.width store.height store.channels then
    throw .sourceImageIsTooLarge
  if checkImageSizeOverflow W into.width into.height store.channels then
    throw .destinationImageIsTooLarge
  if bitDepthChecked = true ∧ ¬ (1 ≤ into.bitDepth ∧ into.bitDepth ≤ 16) then
    throw (.unsupportedBitDepth into.bitDepth)

/-- `vec![T::default(); width * height * N]` wrapped by `ImageStoreMut::from_slice`, with the bit
depth set afterwards (`src/scaler.rs:629-636`, `:697-703`, `:718-725`). A product that does not fit
`usize` is a panic (debug: arithmetic overflow; release: the vertical pass would index past the
wrapped length). -/
def tempImage (W N : ℕ) (d : S) (width height bitDepth : ℕ) : Option (Image S) :=
  if W ≤ width * height * N then none
  else match Image.fromSlice N (List.replicate (width * height * N) d) width height with
    | .ok img => some { img with bitDepth }
    | .error _ => none

/-- `resize_nearest` on the raw buffers, `src/scaler.rs:612-622` and `:908-918`. -/
def resizeByNearest (N : ℕ) (store into : Image S) : Option (Image S) := do
  let b ← resizeNearest F32.rnd N store.buffer store.width store.height into.buffer into.width into.height
  some { into with buffer := b }

/-- The convolution part of `generic_resize`, `src/scaler.rs:624-665`: vertical pass into a packed
temporary, then horizontal pass; only one of them if only one dimension changes. `table` is
`self.generate_weights`. -/
def convolve (W N : ℕ) (F : Format S) (table : ℕ → ℕ → Option (FilterWeights ℚ))
    (store into : Image S) : Option (Image S) :=
  if store.width ≠ into.width ∧ store.height ≠ into.height then do
    let tmp ← tempImage W N F.default store.width into.height into.bitDepth
    let vf ← table store.height into.height
    let tmp ← F.vertical store tmp vf
    let mid : Image S :=
      { buffer := tmp.buffer, channels := N, width := store.width, height := into.height,
        stride := store.width * N, bitDepth := into.bitDepth }
    let hf ← table store.width into.width
    F.horizontal mid into hf
  else if store.height ≠ into.height then do
    let vf ← table store.height into.height
    F.vertical store into vf
  else do
    let hf ← table store.width into.width
    F.horizontal store into hf

/-- `Scaler::generate_weights` for the scaler's resampling function, in binary32. -/
def tableOf (L : Lib) (r : ResamplingFunction) (inn out : ℕ) : Option (FilterWeights ℚ) :=
  generateWeights F32.rnd (filterOf F32.rnd L r) inn out

/-- `Scaler::generic_resize`, `src/scaler.rs:571-666`. The thread pool does not appear: see
`Model/Sched.lean`. -/
def genericResize (W N : ℕ) (F : Format S) (L : Lib) (r : ResamplingFunction)
    (store into : Image S) : Option (Except Err Unit × Image S) :=
  match checkResize W N F.shouldHaveBitDepth store into with
  | .error e => some (.error e, into)
  | .ok () =>
    if store.width = into.width ∧ store.height = into.height then do
      let d ← store.copiedToMut N into
      some (.ok (), d)
    else if r = .nearest then do
      let d ← resizeByNearest N store into
      some (.ok (), d)
    else do
      let d ← convolve W N F (tableOf L r) store into
      some (.ok (), d)

/-- Alpha handling of a format: `AssociateAlpha` and `UnassociateAlpha`. -/
structure AlphaOps (S : Type) where
  isNeeded : Image S → Bool
  premultiply : (src dst : Image S) → Option (Image S)
  unpremultiply : Image S → Option (Image S)

/-- The prologue shared by the three `forward_resize_*_with_alpha` functions: replace the source by a
premultiplied packed copy if that was requested and is needed (`src/scaler.rs:690-715`, `:761-786`,
`:822-847`). -/
def premultiplied (W N : ℕ) (F : Format S) (A : AlphaOps S) (requested : Bool) (store into : Image S) :
    Option (Image S) :=
  if requested = true ∧ A.isNeeded store = true then do
    let tmp ← tempImage W N F.default store.width store.height into.bitDepth
    let tmp ← A.premultiply store tmp
    some { buffer := tmp.buffer, channels := N, width := store.width, height := store.height,
           stride := store.width * N, bitDepth := into.bitDepth }
  else some store

/-- `Scaler::generic_resize_with_alpha` (`src/scaler.rs:864-933`) with the three `forward_*` functions
(`:668-862`) it calls. `has_alpha_premultiplied` starts as `true` and is never cleared, so
`unpremultiply_alpha` runs whenever premultiplication was requested. -/
def genericResizeWithAlpha (W N : ℕ) (F : Format S) (A : AlphaOps S) (L : Lib) (r : ResamplingFunction)
    (store into : Image S) (requested : Bool) : Option (Except Err Unit × Image S) :=
  match checkResize W N F.shouldHaveBitDepth store into with
  | .error e => some (.error e, into)
  | .ok () =>
    if store.width = into.width ∧ store.height = into.height then do
      let d ← store.copiedToMut N into
      some (.ok (), d)
    else if r = .nearest then do
      let d ← resizeByNearest N store into
      some (.ok (), d)
    else do
      let src ← premultiplied W N F A requested store into
      let d ← convolve W N F (tableOf L r) src into
      if requested = true then do
        let d ← A.unpremultiply d
        some (.ok (), d)
      else some (.ok (), d)

/-- 8-bit images, scalar path (`src/plane_u8.rs`, `src/cbcr8.rs`, `src/rgb_u8.rs`, `src/rgba_u8.rs`,
without SIMD): both passes convert the table to `i16` first
(`src/dispatch_group_u8.rs:51`, `:112`; `CheckStoreDensity` for `u8`, `src/image_store.rs`). -/
def formatU8 (N : ℕ) : Format ℕ where
  default := 0
  shouldHaveBitDepth := false
  vertical := fun src dst fw => verticalFixed N 255 src dst (numericalApproximation F32.rnd fw)
  horizontal := fun src dst fw => horizontalFixed N 255 src dst (numericalApproximation F32.rnd fw)

end PicScale
