import Verif.Model.Sched

/-!
The C interface: `/repo/picscale/src/lib.rs`.

Memory is byte addressed. A pointer argument is an address together with the bytes the caller has
there (nothing is known about memory beyond them, touching it is `none`, like a panic). The source and
destination regions do not overlap, as the C interface requires. `usize` arithmetic does not overflow.
-/

namespace PicScale

variable {S : Type}

/-- A pointer: its address and the caller's bytes from there on. -/
structure Ptr where
  addr : ℕ
  mem : List ℕ
  deriving DecidableEq, Repr

/-- The memory representation of a sample type `T`: `size_of::<T>()`, `align_of::<T>()`,
`T::default()`, reading and writing. -/
structure MemRepr (S : Type) where
  size : ℕ
  align : ℕ
  default : S
  dec : List ℕ → S
  enc : S → List ℕ

/-- `u8`. -/
def reprU8 : MemRepr ℕ where
  size := 1
  align := 1
  default := 0
  dec := fun b => b.getD 0 0
  enc := fun v => [v]

/-- `u16`, little endian. -/
def reprU16 : MemRepr ℕ where
  size := 2
  align := 2
  default := 0
  dec := fun b => b.getD 0 0 + 256 * b.getD 1 0
  enc := fun v => [v % 256, v / 256]

/-- `ScalingFilter`, `picscale/src/lib.rs:41-49`. -/
inductive CFilter where
  | nearest | bilinear | lanczos3 | mitchellNetravalli | bicubic | catmullRom
  deriving DecidableEq, Repr

/-- `ScalingFilter::to_resampling`, `picscale/src/lib.rs:51-62`. -/
def CFilter.toResampling : CFilter → ResamplingFunction
  | .nearest => .nearest
  | .bilinear => .bilinear
  | .lanczos3 => .lanczos3
  | .mitchellNetravalli => .mitchellNetravalli
  | .bicubic => .bicubic
  | .catmullRom => .catmullRom

/-- `map_error_code`, `picscale/src/lib.rs:64-70`. -/
def mapErrorCode : Except Err Unit → ℕ
  | .ok () => 0
  | .error e => e.code

/-- `src.read_unaligned()` at byte offset `off`. -/
def readAt (R : MemRepr S) (mem : List ℕ) (off : ℕ) : Option S := (slice? mem off (off + R.size)).map R.dec

/-- `slice::from_raw_parts(p, n)` for `p : *const T`: undefined (here `none`) if the pointer is not
aligned or the memory is too short. -/
def fromRawParts (R : MemRepr S) (p : Ptr) (n : ℕ) : Option (List S) :=
  if p.addr % R.align = 0 ∧ n * R.size ≤ p.mem.length then
    (List.range n).mapM fun i => readAt R p.mem (i * R.size)
  else none

/-- One row of the copy of an unaligned source, `picscale/src/lib.rs:109-112`: sample `i` is read at
byte `i * N` of the row (the row is cut into chunks of `N` *bytes*), as long as there are chunks. -/
def unalignedRow (R : MemRepr S) (N : ℕ) (mem : List ℕ) (stride : ℕ) (row : List S) (y : ℕ) : Option (List S) :=
  row.zipIdx.mapM fun di => if di.2 < stride / N then readAt R mem (y * stride + di.2 * N) else some di.1

/-- The source image, `picscale/src/lib.rs:93-130`. `chunks_exact(0)` panics. -/
def cSource (R : MemRepr S) (N : ℕ) (src : Ptr) (stride width height bitDepth : ℕ) : Option (Image S) :=
  if src.addr % R.align ≠ 0 ∨ stride % R.size ≠ 0 then
    if width * N = 0 ∨ stride = 0 ∨ src.mem.length < stride * height then none
    else do
      let b ← updChunks (width * N) (unalignedRow R N src.mem stride)
        (List.replicate (width * height * N) R.default) (List.range height)
      some { buffer := b, channels := N, width, height, stride := width * N, bitDepth }
  else do
    let b ← fromRawParts R src (stride / R.size * height)
    some { buffer := b, channels := N, width, height, stride := stride / R.size, bitDepth }

/-- One row of the copy into an unaligned destination, `picscale/src/lib.rs:167-171`: sample `i` is
written at byte `i * N` of the row. -/
def unalignedStore (R : MemRepr S) (N stride : ℕ) (mem : List ℕ) (rowY : List S × ℕ) : Option (List ℕ) :=
  ((rowY.1.take (stride / N)).zipIdx).foldlM
    (fun m si => writeAt? m (rowY.2 * stride + si.2 * N) (R.enc si.1)) mem

/-- `pic_scale_scale_generic`, `picscale/src/lib.rs:72-200`. `scale` is `ImageStoreScaling::scale` for the
sample type and channel count. Returns the error code and the destination bytes after the call. -/
def cResize (R : MemRepr S) (N : ℕ) (scale : Image S → Image S → Option (Except Err Unit × Image S))
    (src : Ptr) (srcStride width height : ℕ) (dst : Ptr) (dstStride newWidth newHeight bitDepth : ℕ) :
    Option (ℕ × List ℕ) := do
  let source ← cSource R N src srcStride width height bitDepth
  if dst.addr % R.align ≠ 0 ∧ dstStride % R.size ≠ 0 then
    let (r, out) ← scale source (Image.alloc N R.default newWidth newHeight bitDepth)
    if mapErrorCode r ≠ 0 then some (mapErrorCode r, dst.mem)
    else if dst.mem.length < newWidth * dstStride then none
    else do
      let m ← (((chunksExact (out.strideOf N) out.buffer).take newWidth).zipIdx).foldlM
        (unalignedStore R N dstStride) dst.mem
      some (0, m)
  else do
    let b ← fromRawParts R dst (newHeight * (dstStride / R.size))
    let (r, out) ← scale source
      { buffer := b, channels := N, width := newWidth, height := newHeight, stride := dstStride / R.size, bitDepth }
    let m ← writeAt? dst.mem 0 (out.buffer.flatMap R.enc)
    some (mapErrorCode r, m)

/-- `PIC_SCALE_PREMULTIPLY_ALPHA`, `picscale/src/lib.rs:38`. -/
def PIC_SCALE_PREMULTIPLY_ALPHA : ℕ := 1
/-- `PIC_SCALE_USE_MULTITHREADING`, `picscale/src/lib.rs:39`. -/
def PIC_SCALE_USE_MULTITHREADING : ℕ := 2

/-- `ImageStoreScaling::scale` with the options the C interface builds from `flags` and the filter
(`picscale/src/lib.rs:132-139`, `src/scaler.rs:1209-1399`): the threading policy is `Adaptive` or
`Single`; four-channel images go through `generic_resize_with_alpha`. -/
def cScale (M : Machine) (W N : ℕ) (t : PixelTy) (bits : ℚ → ℕ) (L : Lib) (f : CFilter) (flags : ℕ)
    (store into : Image t.Sample) : Option (Except Err Unit × Image t.Sample) :=
  let p : Policy := if flags &&& PIC_SCALE_USE_MULTITHREADING ≠ 0 then .adaptive else .single
  if N = 4 then
    resizeAlphaUnder M p W t bits L f.toResampling store into
      (decide (flags &&& PIC_SCALE_PREMULTIPLY_ALPHA ≠ 0))
  else resizeUnder M p W N t L f.toResampling store into

/-- The exported functions `pic_scale_resize_{rgba,rgb,cbcr,planar}{8,16,_f32}`
(`picscale/src/lib.rs:208-742`): `bit_depth` is 8 for u8, the caller's for u16, 16 for f32. -/
def picScaleResize (M : Machine) (W N : ℕ) (t : PixelTy) (R : MemRepr t.Sample) (bits : ℚ → ℕ) (L : Lib)
    (src : Ptr) (srcStride width height : ℕ) (dst : Ptr) (dstStride newWidth newHeight bitDepth : ℕ)
    (f : CFilter) (flags : ℕ) : Option (ℕ × List ℕ) :=
  cResize R N (cScale M W N t bits L f flags) src srcStride width height dst dstStride newWidth newHeight
    (match t with
      | .u8 => 8
      | .u16 _ => bitDepth
      | .f32 _ => 16)

end PicScale
