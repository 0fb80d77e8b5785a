import Verif.Model.X86F32

/-!
The f32 convolution passes on AArch64: `src/neon/vertical_f32.rs`, `src/neon/plane_f32.rs`,
`src/neon/rgb_f32.rs`, `src/neon/rgba_f32.rs`, and the selection in `src/plane_f32.rs`, `src/cbcr_f32.rs`,
`src/rgb_f32.rs`, `src/rgba_f32.rs`.

A register is a list of four values. `prefer_vfmaq_f32(a, b, c)`, `prefer_vfmaq_lane(q)_f32`
(`src/neon/utils.rs:104-151`) are `vfmaq_f32`, one fused `a + b * c` per lane: `preferV o true a b c`.
`xvld1q_f32_x2`, `xvld1q_f32_x4` are two and four adjacent loads. The parts whose lanes do the same as in the
SSE code with FMA use the definitions of `Model/X86F32.lean`. A load outside the slice is `none`.
-/

namespace PicScale

variable {A : Type}

/-! ### vertical -/

/-- One row of `vBlock4NeonF`: `xvld1q_f32_x2` loads eight samples, the first four are used. -/
def vStep4NeonF (o : VecOps A) (b : Bounds) (src : List A) (stride : ℕ) (weight : List ℚ) (sx j : ℕ)
    (st : List A) : Option (List A) := do
  let w ← weight[j]?
  let row ← slice? src (stride * (b.start + j) + sx) (stride * (b.start + j) + sx + 8)
  some (preferV o true st (row.take 4) (set1v (o.weight w)))

/-- Four samples: `convolve_vertical_part_neon_4_f32`, `src/neon/vertical_f32.rs:204-231`. -/
def vBlock4NeonF (o : VecOps A) (b : Bounds) (src : List A) (stride : ℕ) (weight : List ℚ) (sx : ℕ)
    (dst : List A) : Option (List A) := do
  let st ← forRange 0 b.size (vStep4NeonF o b src stride weight sx) (set1v o.zero)
  writeAt? dst sx st

/-- `convolve_vertical_rgb_neon_row_f32`, `src/neon/vertical_f32.rs:261-336`: blocks of 48, 32, 16 and 8
samples (`:34-202`; `vBlockF` with 12, 8, 4 and 2 registers), blocks of 4, and single samples broadcast to
four lanes (`:233-259`; `vTailF`). -/
def neonColumnF (o : VecOps A) (b : Bounds) (src dst : List A) (stride : ℕ) (weight : List ℚ) :
    Option (List A) := do
  let total := dst.length
  let (cx, d) ← whileBlocks 48 48 total (vBlockF o true 12 b src stride weight) total 0 dst
  let (cx, d) ← whileBlocks 32 32 total (vBlockF o true 8 b src stride weight) total cx d
  let (cx, d) ← whileBlocks 16 16 total (vBlockF o true 4 b src stride weight) total cx d
  let (cx, d) ← whileBlocks 8 8 total (vBlockF o true 2 b src stride weight) total cx d
  let (cx, d) ← whileBlocks 4 4 total (vBlock4NeonF o b src stride weight) total cx d
  let (_, d) ← whileBlocks 0 1 total (vTailF o true true b src stride weight) total cx d
  some d

/-! ### one channel -/

/-- `convolve_horizontal_plane_neon_row_one` (`step16 = 8`: as in the SSE code the loop over 16 pixels
advances by 8, `src/neon/plane_f32.rs:90-160`) and `convolve_horizontal_plane_neon_rows_4` (`step16 = 16`,
`:162-297`; the macros are at `:34-88`). The loops and lanes are those of `planeSseF` with FMA; `vaddvq_f32` adds pairwise,
`(v0 + v1) + (v2 + v3)`, as `hsumV`. -/
def planeNeonF (o : VecOps A) (step16 : ℕ) (src : List A) (offs : List ℕ) (w : List ℚ)
    (b : Bounds) : Option (List (List A)) := do
  let st := offs.map fun _ => set1v o.zero
  let (jx, st) ← rowsLoop 16 step16 b.size offs (planePxR o true 4 src w b) 0 st
  let (jx, st) ← rowsLoop 8 8 b.size offs (planePxR o true 2 src w b) jx st
  let (jx, st) ← rowsLoop 4 4 b.size offs (planePxR o true 1 src w b) jx st
  let (jx, st) ← rowsLoop 2 2 b.size offs (planePx2 o true src w b) jx st
  let (_, st) ← rowsLoop 0 1 b.size offs (planePx1 o true src w b) jx st
  some (st.map fun s => [hsumV o s])

/-! ### three channels -/

/-- `convolve_horizontal_rgb_neon_rows_4_f32` and `convolve_horizontal_rgb_neon_row_one_f32`,
`src/neon/rgb_f32.rs:110-243`. The loop over four pixels runs while `jx + 4 < bounds.size` and
`bounds.start + jx + 5 < src_width`, that is `jx + 4 < min bounds.size (src_width - (bounds.start + 1))`.
`conv_horiz_{4,2,1}_rgb_f32` (`:43-108`) are `rgbPx4`, `rgbPx2`, `rgbPx1` with FMA (lane 3, which
`conv_horiz_2_rgb_f32` clears, is not stored). -/
def rgbNeonF (o : VecOps A) (srcWidth : ℕ) (src : List A) (offs : List ℕ) (w : List ℚ) (b : Bounds) :
    Option (List (List A)) := do
  let st := offs.map fun _ => set1v o.zero
  let (jx, st) ← rowsLoop 4 4 (min b.size (srcWidth - (b.start + 1))) offs (rgbPx4 o true src w b) 0 st
  let (jx, st) ← rowsLoop 2 2 b.size offs (rgbPx2 o true src w b) jx st
  let (_, st) ← rowsLoop 0 1 b.size offs (rgbPx1 o true src w b) jx st
  some (st.map fun s => s.take 3)

/-! ### four channels -/

/-- `conv_horiz_rgba_8_f32!`, `src/neon/rgba_f32.rs:35-54`: eight pixels in order, two weight registers. -/
def rgbaPx8F (o : VecOps A) (src : List A) (w : List ℚ) (b : Bounds) (jx off : ℕ) (store : List A) :
    Option (List A) := do
  let acc ← rgbaPx4F o true src w b jx off store
  rgbaPx4F o true src w b (jx + 4) off acc

/-- `convolve_horizontal_rgba_neon_row_one` (`eight = false`, `src/neon/rgba_f32.rs:93-141`) and
`convolve_horizontal_rgba_neon_rows_4` (`eight = true`: a leading loop over eight pixels, `:143-262`);
`conv_horiz_rgba_{4,2,1}_f32!` (`:55-91`) are `rgbaPx4F`, `rgbaPx2F`, `rgbaPx1F` with FMA. -/
def rgbaNeonF (o : VecOps A) (eight : Bool) (src : List A) (offs : List ℕ) (w : List ℚ) (b : Bounds) :
    Option (List (List A)) := do
  let st := offs.map fun _ => set1v o.zero
  let (jx, st) ← (if eight then rowsLoop 8 8 b.size offs (rgbaPx8F o src w b) 0 st else some (0, st))
  let (jx, st) ← rowsLoop 4 4 b.size offs (rgbaPx4F o true src w b) jx st
  let (jx, st) ← rowsLoop 2 2 b.size offs (rgbaPx2F o true src w b) jx st
  let (_, st) ← rowsLoop 0 1 b.size offs (rgbaPx1F o true src w b) jx st
  some st

/-! ### selection -/

/-- `_dispatcher_4_rows` of `convolve_horizontal` on AArch64: `src/plane_f32.rs:67-71`, `src/cbcr_f32.rs`
(scalar only), `src/rgb_f32.rs`, `src/rgba_f32.rs`. -/
def rows4F32Neon (o : VecOps A) (N srcWidth : ℕ) (src : List A) (srcStride : ℕ)
    (dst : List A) (dstStride : ℕ) (fw : FilterWeights ℚ) : Option (List A) :=
  if N = 1 then simdRows4 N (planeNeonF o 16 src) srcStride dst dstStride fw
  else if N = 3 then simdRows4 N (rgbNeonF o srcWidth src) srcStride dst dstStride fw
  else if N = 4 then simdRows4 N (rgbaNeonF o true src) srcStride dst dstStride fw
  else rows4Float (o.scalar true) N src srcStride dst dstStride fw

/-- `_dispatcher_row` of `convolve_horizontal` on AArch64, same places. -/
def rowF32Neon (o : VecOps A) (N srcWidth : ℕ) (src dst : List A) (fw : FilterWeights ℚ) :
    Option (List A) :=
  if N = 1 then simdRow N (planeNeonF o 8 src) dst fw
  else if N = 3 then simdRow N (rgbNeonF o srcWidth src) dst fw
  else if N = 4 then simdRow N (rgbaNeonF o false src) dst fw
  else rowFloat (o.scalar true) N src dst fw

/-- f32 images on AArch64: `convolve_vertical_dispatch_f32`, `convolve_horizontal_dispatch_f32`
(`src/dispatch_group_f32.rs:37-218`, `src_width` is the width of the source) with the handlers above. The
scalar code of two-channel images uses `mlaf`, which on AArch64 is fused (`src/mlaf.rs:31-48`). -/
def formatF32Neon (o : VecOps A) (N : ℕ) : Format A where
  default := o.zero
  shouldHaveBitDepth := false
  vertical := fun src dst fw =>
    verticalDispatch N src dst fw.bounds fw.alignedSize fw.weights
      (fun b s d ss w => neonColumnF o b s d ss w)
  horizontal := fun src dst fw =>
    horizontalDispatch N src dst
      (some fun s ss d ds => rows4F32Neon o N src.width s ss d ds fw)
      (fun s d => rowF32Neon o N src.width s d fw)

end PicScale
