import Verif.Model.Resize

/-!
10-bit packed pixels: `src/ar30.rs`, `src/color_group.rs` (AR30 parts), the scalar handlers
`src/fixed_point_horizontal_ar30.rs`, `src/fixed_point_vertical_ar30.rs`, the sequential arms of
`src/dispatch_group_ar30.rs`, and `src/resize_ar30.rs`.

Buffers hold bytes (naturals below 256); a pixel is four bytes. The byte order of the machine is a
parameter.
-/

namespace PicScale

/-- `Rgb30`, `src/ar30.rs:30-34`. -/
inductive Rgb30 where
  | ar30
  | ra30
  deriving DecidableEq, Repr

/-- `Ar30ByteOrder`, `src/ar30.rs:107-115`. -/
inductive Ar30Order where
  | host
  | network
  deriving DecidableEq, Repr

/-- Byte order of the machine. -/
inductive Endian where
  | little
  | big
  deriving DecidableEq, Repr

/-- `u32::swap_bytes`. -/
def swapBytes (v : ℕ) : ℕ :=
  ((v &&& 0xff) <<< 24) ||| (((v >>> 8) &&& 0xff) <<< 16) ||| (((v >>> 16) &&& 0xff) <<< 8) |||
    ((v >>> 24) &&& 0xff)

/-- `htonl` = `u32::to_be` and `ntohl` = `u32::from_be`, `src/ar30.rs:48-58`. -/
def toBe (e : Endian) (v : ℕ) : ℕ :=
  match e with
  | .little => swapBytes v
  | .big => v

/-- `u32::from_ne_bytes([b0, b1, b2, b3])`. -/
def fromNeBytes (e : Endian) (b0 b1 b2 b3 : ℕ) : ℕ :=
  match e with
  | .little => b0 ||| (b1 <<< 8) ||| (b2 <<< 16) ||| (b3 <<< 24)
  | .big => b3 ||| (b2 <<< 8) ||| (b1 <<< 16) ||| (b0 <<< 24)

/-- `u32::to_ne_bytes`. -/
def toNeBytes (e : Endian) (v : ℕ) : List ℕ :=
  match e with
  | .little => [v &&& 0xff, (v >>> 8) &&& 0xff, (v >>> 16) &&& 0xff, (v >>> 24) &&& 0xff]
  | .big => [(v >>> 24) &&& 0xff, (v >>> 16) &&& 0xff, (v >>> 8) &&& 0xff, v &&& 0xff]

/-- `Rgb30::pack_w_a`, `src/ar30.rs:74-84`; the arguments are the outputs of `saturate_ar30`, so not
negative. `% 2^32` because `u32 << k` drops the high bits. -/
def pack30 (e : Endian) (t : Rgb30) (o : Ar30Order) (r g b : ℕ) : ℕ :=
  let value := match t with
    | .ar30 => ((3 <<< 30) ||| ((b <<< 20) % 2 ^ 32)) ||| (((g <<< 10) % 2 ^ 32) ||| r)
    | .ra30 => (((r <<< 22) % 2 ^ 32) ||| ((g <<< 12) % 2 ^ 32)) ||| (((b <<< 2) % 2 ^ 32) ||| 3)
  match o with
  | .host => value
  | .network => toBe e value

/-- `Rgb30::unpack`, `src/ar30.rs:86-104`. -/
def unpack30 (e : Endian) (t : Rgb30) (o : Ar30Order) (value : ℕ) : List ℕ :=
  let pixel := match o with
    | .host => value
    | .network => toBe e value
  match t with
  | .ar30 => [pixel &&& 0x3ff, (pixel >>> 10) &&& 0x3ff, (pixel >>> 20) &&& 0x3ff, 3]
  | .ra30 => [(pixel >>> 22) &&& 0x3ff, (pixel >>> 12) &&& 0x3ff, (pixel >>> 2) &&& 0x3ff, 3]

/-- The pixel format in use. -/
structure Fmt30 where
  endian : Endian
  ty : Rgb30
  order : Ar30Order
  deriving DecidableEq, Repr

/-- `load_ar30!`, `load_ar30_p!` (`off = 0`) and `load_ar30_with_offset!`,
`src/color_group.rs:417-465`; `off` counts bytes. -/
def load30 (F : Fmt30) (s : List ℕ) (off : ℕ) : Option (List ℤ) := do
  let b0 ← s[off]?
  let b1 ← s[off + 1]?
  let b2 ← s[off + 2]?
  let b3 ← s[off + 3]?
  some ((unpack30 F.endian F.ty F.order (fromNeBytes F.endian b0 b1 b2 b3)).map Int.ofNat)

/-- `saturate_ar30`, `src/color_group.rs:167-174`, one component. -/
def saturate30 (hi : ℕ) (v : ℤ) : ℕ := (max (min (v >>> 15) (hi : ℤ)) 0).toNat

/-- `sums.saturate_ar30().to_ar30().to_ne_bytes()`, `src/color_group.rs:167-180` (the alpha component is
computed and ignored by `pack_w_a`). -/
def store30 (F : Fmt30) (sums : List ℤ) : List ℕ :=
  toNeBytes F.endian (pack30 F.endian F.ty F.order (saturate30 1023 (sums.getD 0 0))
    (saturate30 1023 (sums.getD 1 0)) (saturate30 1023 (sums.getD 2 0)))

/-- The cases `bounds_size` 2, 3, 4, 6 of `convolve_row_handler_fixed_point_ar30`,
`src/fixed_point_horizontal_ar30.rs:61-105`, and of the 4-row version (`:171-275`, textual copies with
`base = r * src_stride`): `n` is the literal window size. The four unrolled sums are
`((load 0 * w0 + load 1 * w1) + load 2 * w2) + …`, written here as one left fold. -/
def unrolled30 (F : Fmt30) (n : ℕ) (src : List ℕ) (base : ℕ) (weights : List ℤ) (b : Bounds) :
    Option (List ℤ) := do
  let px := b.start * 4 + base
  let s ← slice? src px (px + n * 4)
  let ws ← slice? weights 0 n
  let w0 ← ws[0]?
  let p0 ← load30 F s 0
  let sum ← (List.range (n - 1)).foldlM (fun acc k => do
      let w ← ws[k + 1]?
      let p ← load30 F s ((k + 1) * 4)
      some (cgAdd acc (cgMul p w))) (cgMul p0 w0)
  some (cgAdd (List.replicate 4 ROUNDING_CONST) sum)

/-- One output pixel of `convolve_row_handler_fixed_point_ar30`,
`src/fixed_point_horizontal_ar30.rs:52-117`. The general branch slices `bounds_size` *bytes*
(`:107`: `&src[px..(px + bounds_size)]`). -/
def row30Sums (F : Fmt30) (src : List ℕ) (weights : List ℤ) (b : Bounds) : Option (List ℤ) :=
  if b.size = 2 ∨ b.size = 3 ∨ b.size = 4 ∨ b.size = 6 then unrolled30 F b.size src 0 weights b
  else do
    let px := b.start * 4
    let s ← slice? src px (px + b.size)
    ((weights.zip (chunksExact 4 s)).take b.size).foldlM
      (fun acc kc => do
        let p ← load30 F kc.2 0
        some (cgAdd acc (cgMul p kc.1))) (List.replicate 4 ROUNDING_CONST)

/-- `convolve_row_handler_fixed_point_ar30`, `src/fixed_point_horizontal_ar30.rs:35-125`. -/
def row30 (F : Fmt30) (src dst : List ℕ) (fw : FilterWeights ℤ) : Option (List ℕ) :=
  updChunks 4 (fun _ bw => do
    let sums ← row30Sums F src bw.2 bw.1
    some (store30 F sums)) dst
    (fw.bounds.zip (chunksExact fw.alignedSize fw.weights))

/-- Loop body of `convolve_row_handler_fixed_point_4_ar30`,
`src/fixed_point_horizontal_ar30.rs:160-297`. -/
def rows4_30Sums (F : Fmt30) (src : List ℕ) (srcStride : ℕ) (weights : List ℤ) (b : Bounds) :
    Option (List ℤ × List ℤ × List ℤ × List ℤ) :=
  if b.size = 2 ∨ b.size = 3 ∨ b.size = 4 ∨ b.size = 6 then do
    let s0 ← unrolled30 F b.size src 0 weights b
    let s1 ← unrolled30 F b.size src srcStride weights b
    let s2 ← unrolled30 F b.size src (srcStride * 2) weights b
    let s3 ← unrolled30 F b.size src (srcStride * 3) weights b
    some (s0, s1, s2, s3)
  else do
    let px := b.start * 4
    let s0 ← slice? src px (px + b.size * 4)
    let s1 ← slice? src (px + srcStride) (px + srcStride + b.size * 4)
    let s2 ← slice? src (px + srcStride * 2) (px + srcStride * 2 + b.size * 4)
    let s3 ← slice? src (px + srcStride * 3) (px + srcStride * 3 + b.size * 4)
    let init := List.replicate 4 ROUNDING_CONST
    ((((weights.zip (chunksExact 4 s0)).zip (chunksExact 4 s1)).zip (chunksExact 4 s2)).zip
        (chunksExact 4 s3) |>.take b.size).foldlM
      (fun acc e => do
        let w := e.1.1.1.1
        let p0 ← load30 F e.1.1.1.2 0
        let p1 ← load30 F e.1.1.2 0
        let p2 ← load30 F e.1.2 0
        let p3 ← load30 F e.2 0
        some (cgAdd acc.1 (cgMul p0 w), cgAdd acc.2.1 (cgMul p1 w), cgAdd acc.2.2.1 (cgMul p2 w),
          cgAdd acc.2.2.2 (cgMul p3 w))) (init, init, init, init)

/-- `convolve_row_handler_fixed_point_4_ar30`, `src/fixed_point_horizontal_ar30.rs:128-329`. -/
def rows4_30 (F : Fmt30) (src : List ℕ) (srcStride : ℕ) (dst : List ℕ) (dstStride : ℕ)
    (fw : FilterWeights ℤ) : Option (List ℕ) := do
  let row0 ← slice? dst 0 dstStride
  let row1 ← slice? dst dstStride (dstStride * 2)
  let row2 ← slice? dst (dstStride * 2) (dstStride * 3)
  let row3 ← slice? dst (dstStride * 3) dst.length
  let (r0, r1, r2, r3) ← updChunks4 4 (fun bw => do
      let (s0, s1, s2, s3) ← rows4_30Sums F src srcStride bw.2 bw.1
      some (store30 F s0, store30 F s1, store30 F s2, store30 F s3))
    row0 row1 row2 row3 (fw.bounds.zip (chunksExact fw.alignedSize fw.weights))
  some (r0 ++ r1 ++ r2 ++ r3)

/-- One accumulation step of the vertical handlers: `*dst += load_ar30_p!(src) * weight` over `R`
buffers of `B` pixels (`src/fixed_point_vertical_ar30.rs:58-62,69-78` and the copies for two and four
buffers). `offset` counts bytes. -/
def columnStep30 (F : Fmt30) (R B : ℕ) (src : List ℕ) (offset : ℕ) (weight : ℤ)
    (stores : List (List (List ℤ))) : Option (List (List (List ℤ))) :=
  ((List.range R).zip stores).mapM fun rs => do
    let s ← slice? src (offset + B * rs.1 * 4) (offset + B * (rs.1 + 1) * 4)
    (rs.2.zip (chunksExact 4 s)).mapM fun ac => do
      let p ← load30 F ac.2 0
      some (cgAdd ac.1 (cgMul p weight))

/-- `convolve_column_handler_fip_db_ar30` (`R = 1`), `…_direct_buffer_double` (`R = 2`), `…_four`
(`R = 4`), `src/fixed_point_vertical_ar30.rs:38-89,95-175,181-298`. `x` counts pixels. -/
def columnBlock30 (F : Fmt30) (R B : ℕ) (src : List ℕ) (srcStride : ℕ) (filter : List ℤ) (b : Bounds)
    (x : ℕ) (dst : List ℕ) : Option (List ℕ) :=
  match filter with
  | [] => some dst
  | w0 :: _ => do
    let stores := List.replicate R (List.replicate B (List.replicate 4 ROUNDING_CONST))
    let stores ← columnStep30 F R B src (srcStride * b.start + x * 4) w0 stores
    let stores ← (((filter.take b.size).drop 1).zipIdx).foldlM
      (fun st wj => columnStep30 F R B src (srcStride * (b.start + wj.2 + 1) + x * 4) wj.1 st) stores
    ((List.range R).zip stores).foldlM
      (fun d rs => writeAt? d (x * 4 + B * rs.1 * 4) (rs.2.flatMap (store30 F))) dst

/-- `column_handler_fixed_point_ar30`, `src/fixed_point_vertical_ar30.rs:300-350`. -/
def column30 (F : Fmt30) (b : Bounds) (src dst : List ℕ) (srcStride : ℕ) (weight : List ℤ) :
    Option (List ℕ) := do
  let total := dst.length / 4
  let (cx, d) ← whileBlocks 64 64 total (columnBlock30 F 4 16 src srcStride weight b) total 0 dst
  let (cx, d) ← whileBlocks 32 32 total (columnBlock30 F 2 16 src srcStride weight b) total cx d
  let (cx, d) ← whileBlocks 16 16 total (columnBlock30 F 1 16 src srcStride weight b) total cx d
  let (cx, d) ← whileBlocks 8 8 total (columnBlock30 F 1 8 src srcStride weight b) total cx d
  let (_, d) ← whileBlocks 0 1 total (columnBlock30 F 1 1 src srcStride weight b) total cx d
  some d

/-- A byte buffer as an image record, to reuse the models of the dispatch loops. -/
def image30 (buffer : List ℕ) (width height stride : ℕ) : Image ℕ :=
  { buffer, channels := 4, width, height, stride, bitDepth := 0 }

/-- `convolve_horizontal_dispatch_ar30`, `src/dispatch_group_ar30.rs:42-195` (sequential arm, scalar
handlers): same loops as `horizontalDispatch`; widths and heights do not appear in it. -/
def horizontal30 (F : Fmt30) (src : List ℕ) (srcStride : ℕ) (fw : FilterWeights ℚ) (dst : List ℕ)
    (dstStride : ℕ) : Option (List ℕ) := do
  let approx := numericalApproximation F32.rnd fw
  let d ← horizontalDispatch 4 (image30 src 0 0 srcStride) (image30 dst 0 0 dstStride)
    (some fun s ss d ds => rows4_30 F s ss d ds approx) (fun s d => row30 F s d approx)
  some d.buffer

/-- `convolve_vertical_dispatch_ar30`, `src/dispatch_group_ar30.rs:197-321` (sequential arm, scalar
handler). -/
def vertical30 (F : Fmt30) (src : List ℕ) (srcStride : ℕ) (fw : FilterWeights ℚ) (dst : List ℕ)
    (dstStride width : ℕ) : Option (List ℕ) := do
  let approx := numericalApproximation F32.rnd fw
  let d ← verticalDispatch 4 (image30 src 0 0 srcStride) (image30 dst width 0 dstStride)
    approx.bounds approx.alignedSize approx.weights (fun b s d ss w => column30 F b s d ss w)
  some d.buffer

/-- The checks of `resize_ar30_impl`, `src/resize_ar30.rs:47-83` (`src_stride * height` is not
truncated here). -/
def check30 (W : ℕ) (src dst : Image ℕ) : Except Err Unit := do
  if src.width = 0 ∨ src.height = 0 ∨ dst.width = 0 ∨ dst.height = 0 then throw .zeroImageDimensions
  if checkImageSizeOverflow W src.width src.height 4 then throw .sourceImageIsTooLarge
  if checkImageSizeOverflow W dst.width dst.height 4 then throw .destinationImageIsTooLarge
  if src.buffer.length ≠ src.stride * src.height then
    throw (.bufferMismatch (src.stride * src.height) src.width src.height 4 src.buffer.length)
  if src.stride < src.width * 4 then throw (.invalidStride (src.width * 4) src.stride)
  if dst.buffer.length ≠ dst.stride * dst.height then
    throw (.bufferMismatch (dst.stride * dst.height) dst.width dst.height 4 dst.buffer.length)
  if dst.stride < dst.width * 4 then throw (.invalidStride (dst.width * 4) dst.stride)

/-- `resize_ar30_impl`, `src/resize_ar30.rs:38-167`. The arguments `src, src_stride, src_size` and
`dst, dst_stride, dst_size` are packed into image records (`channels`, `bitDepth` unused). Note
`src_stride` passed as destination stride at `:127` and strides passed as widths at `:102-110`. -/
def resize30 (W : ℕ) (F : Fmt30) (L : Lib) (r : ResamplingFunction) (src dst : Image ℕ) :
    Option (Except Err Unit × List ℕ) :=
  match check30 W src dst with
  | .error e => some (.error e, dst.buffer)
  | .ok () =>
    if src.width = dst.width ∧ src.height = dst.height then
      some (.ok (), overwrite src.buffer dst.buffer)
    else if r = .nearest then do
      let d ← resizeNearest F32.rnd 4 src.buffer src.stride src.height dst.buffer dst.stride dst.height
      some (.ok (), d)
    else if src.height ≠ dst.height ∧ src.width = dst.width then do
      let vf ← tableOf L r src.height dst.height
      let d ← vertical30 F src.buffer src.stride vf dst.buffer src.stride src.width
      some (.ok (), d)
    else if src.height ≠ dst.height then do
      if W ≤ src.width * dst.height * 4 then none else
      let vf ← tableOf L r src.height dst.height
      let t ← vertical30 F src.buffer src.stride vf (List.replicate (src.width * dst.height * 4) 0)
        (src.width * 4) src.width
      let hf ← tableOf L r src.width dst.width
      let d ← horizontal30 F t (src.width * 4) hf dst.buffer dst.stride
      some (.ok (), d)
    else do
      let hf ← tableOf L r src.width dst.width
      let d ← horizontal30 F src.buffer src.stride hf dst.buffer dst.stride
      some (.ok (), d)

end PicScale
