import Verif.Model.Slices

/-!
Model of `src/image_store.rs`, `src/support.rs`, `src/pic_scale_error.rs`,
`src/threading_policy.rs` (thread counts).
-/

namespace PicScale

/-- `PicScaleError`, `src/pic_scale_error.rs:32-50` (payload of `BufferMismatch` inlined). -/
inductive Err where
  | zeroImageDimensions
  | sourceImageIsTooLarge
  | destinationImageIsTooLarge
  | bufferMismatch (expected width height channels sliceLen : Nat)
  | invalidStride (minStride realStride : Nat)
  | unsupportedBitDepth (depth : Nat)
  | unknownResizingFilter
  deriving DecidableEq, Repr

/-- `PicScaleError::code`, `src/pic_scale_error.rs:54-64`. -/
def Err.code : Err → Nat
  | .zeroImageDimensions => 1
  | .sourceImageIsTooLarge => 2
  | .destinationImageIsTooLarge => 3
  | .bufferMismatch .. => 4
  | .invalidStride .. => 5
  | .unsupportedBitDepth _ => 6
  | .unknownResizingFilter => 7

/-- `ImageStore<'_, T, N>` and `ImageStoreMut<'_, T, N>`, `src/image_store.rs:53-95`. Both have the
same public fields; ownership of the buffer (`Cow`, `BufferStore`) is not modelled. The const
generic `N` is an argument of the functions below. -/
structure Image (α : Type _) where
  buffer : List α
  channels : Nat
  width : Nat
  height : Nat
  stride : Nat
  bitDepth : Nat
  deriving DecidableEq, Repr

namespace Image
variable {α : Type _}

/-- `ImageStore::{new,borrow,from_slice}` (`src/image_store.rs:129-177,402-425`) and
`ImageStoreMut::{new,borrow,from_slice}` (`:268-319,469-492`): six copies of the same code. -/
def fromSlice (N : Nat) (slice : List α) (width height : Nat) : Except Err (Image α) :=
  let expected := width * height * N
  if slice.length ≠ width * height * N then
    .error (.bufferMismatch expected width height N slice.length)
  else
    .ok { buffer := slice, channels := N, width, height, stride := width * N, bitDepth := 0 }

/-- `ImageStore::alloc` (`src/image_store.rs:179-189`), `ImageStoreMut::alloc_with_depth`
(`:337-351`; `alloc` at `:324-334` is depth 0). `d` is `T::default()`. -/
def alloc (N : Nat) (d : α) (width height : Nat) (bitDepth : Nat := 0) : Image α :=
  { buffer := List.replicate (width * N * height) d, channels := N, width, height,
    stride := width * N, bitDepth }

/-- `stride()`, `src/image_store.rs:362-367` and `:378-383`. -/
def strideOf (N : Nat) (img : Image α) : Nat :=
  if img.stride = 0 then img.width * N else img.stride

/-- `validate()`, `src/image_store.rs:221-236` (mut) and `:243-258`. -/
def validate (N : Nat) (img : Image α) : Except Err Unit :=
  let expected := img.strideOf N * img.height
  if img.buffer.length ≠ img.strideOf N * img.height then
    .error (.bufferMismatch expected img.width img.height N img.buffer.length)
  else if img.stride < img.width * N then
    .error (.invalidStride (img.width * N) img.stride)
  else .ok ()

/-- `ImageStore::copied` (`src/image_store.rs:427-436`), `ImageStoreMut::copied` (`:494-503`),
`ImageStoreMut::to_immutable` (`:505-514`): three copies of the same code. -/
def copied (N : Nat) (img : Image α) : Image α :=
  { img with channels := N, stride := img.width * N }

/-- `ImageStore::copied_to_mut`, `src/image_store.rs:438-450`. -/
def copiedToMut (N : Nat) (src into : Image α) : Option (Image α) := do
  let b ← updChunks (into.strideOf N) (fun row s => some (overwrite s row)) into.buffer
    (chunksExact (src.strideOf N) src.buffer)
  some { into with buffer := b }

end Image

/-- `usize::overflowing_mul` for a word with `W` values (`W = 2^64` or `2^32`). -/
def overflowingMul (W a b : Nat) : Nat × Bool := (a * b % W, decide (W ≤ a * b))

/-- `check_image_size_overflow`, `src/support.rs:33-40`. -/
def checkImageSizeOverflow (W width height chan : Nat) : Bool :=
  let (stride, o) := overflowingMul W width chan
  if o then true
  else
    let (_, o) := overflowingMul W height stride
    o

/-- `ThreadingPolicy`, `src/threading_policy.rs:41-51`. -/
inductive Policy where
  | single
  | fixed (n : Nat)
  | adaptive
  deriving DecidableEq, Repr

/-- `ThreadingPolicy::thread_count`, `src/threading_policy.rs:57-70`; `avail` is the machine's
`available_parallelism()` (a `NonZeroUsize`). `clamp(1, avail)` is `max 1 (min avail _)`. -/
def Policy.threadCount (avail : Nat) (p : Policy) (width height : Nat) : Nat :=
  match p with
  | .single => 1
  | .fixed n => max n 1
  | .adaptive => max 1 (min (width * height / (256 * 256)) avail)

/-- `ThreadingPolicy::get_pool`, `src/threading_policy.rs:80-89`: `none` = run on the calling
thread; `some n` = a rayon pool of `n` threads. `poolOk` says whether building the pool succeeded. -/
def Policy.getPool (avail : Nat) (poolOk : Bool) (p : Policy) (width height : Nat) : Option Nat :=
  if p = .single then none
  else if poolOk then some (p.threadCount avail width height) else none

end PicScale
