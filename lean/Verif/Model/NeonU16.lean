import Verif.Model.X86U16
import Verif.Model.Neon
import Verif.Model.NeonAlphaU16

/-!
The u16 convolution passes on aarch64 with NEON: `src/neon/vertical_u16_lb.rs`, `src/neon/vertical_u16_lb_f16.rs`,
`src/neon/rgba_u16_lb.rs` (depths up to 12), `src/neon/vertical_u16.rs` (deeper), and the selection in
`src/handler_provider.rs` and `src/dispatch_group_u16.rs`.

Registers are lists of lanes, as in `Model/Neon.lean`. A sample is an unsigned 16-bit value; `i16` is
`vreinterpretq_s16_u16`. The two or four registers a block works on side by side are one list of lanes here, and
their adjacent loads one slice (no lane operation mixes lanes). The cases `bounds_size == 2`, `3`, `4` that write
the rows out, with the `lane` forms of the same instructions, are `unrolled24`.
-/

namespace PicScale

/-! ### blocks of a column handler -/

/-- One row for `B` lanes: the weight of the row, `B` samples, multiply accumulate in every lane. -/
def laneStep {A W : Type} (mac : A → ℕ → W → A) (B : ℕ) (b : Bounds) (src : List ℕ) (stride : ℕ)
    (weight : List W) (sx j : ℕ) (st : List A) : Option (List A) := do
  let w ← weight[j]?
  let row ← slice? src (stride * (b.start + j) + sx) (stride * (b.start + j) + sx + B)
  some (List.zipWith (fun a v => mac a v w) st row)

/-- A chunk of `B` samples: `init` in every lane, all rows of the window, `fin` on every lane. -/
def laneBlock {A W : Type} (mac : A → ℕ → W → A) (init : A) (fin : A → ℕ) (B : ℕ) (b : Bounds) (src : List ℕ)
    (stride : ℕ) (weight : List W) (sx : ℕ) : Option (List ℕ) := do
  let step := laneStep mac B b src stride weight sx
  let st ← unrolled24 (if b.size ≤ 4 then b.size else min b.size weight.length) step step (List.replicate B init)
  some (st.map fin)

/-! ### up to 12 bits: 32-bit accumulators -/

/-- `ROUNDING_CONST`, `src/neon/vertical_u16_lb.rs:48-49`, `src/neon/rgba_u16_lb.rs:128-129,241-242`. -/
def NEON16_ROUNDING : ℤ := (1 <<< (16 - 1)) - 1

/-- One lane of `vqdmlal_s16` and its `lane`, `high` forms on a sample. -/
def tapQ (a : ℤ) (v : ℕ) (w : ℤ) : ℤ := vqdmlal1 a (i16 (v : ℤ)) (i16 w)

/-- `vqshrun_n_s32::<16>` then `vminq_u16(_, 2^d - 1)`, one lane; `src/neon/vertical_u16_lb.rs:187-193,289-295,385-388`,
`src/neon/rgba_u16_lb.rs:212-220,290`. -/
def narrowQ (d : ℕ) (v : ℤ) : ℕ := min (max 0 (min (v >>> 16) 65535) : ℤ).toNat (2 ^ d - 1)

/-- One sample of the scalar tail: `store0 += 2 * src as i32 * weight as i32`, wrapping (release build);
`src/neon/vertical_u16_lb.rs:413-455`. -/
def tapTail (a : ℤ) (v : ℕ) (w : ℤ) : ℤ := i32 (a + i32 (2 * (v : ℤ) * w))

/-- `(store0 >> PRECISION).max(0).min(max_colors as i32) as u16`, `src/neon/vertical_u16_lb.rs:462`. -/
def narrowTail (d : ℕ) (v : ℤ) : ℕ := (min (max (v >>> 16) 0) (((2 ^ d - 1 : ℕ) : ℤ))).toNat

/-- `convolve_column_lb_u16`, `src/neon/vertical_u16_lb.rs:33-466`: chunks of 16, 8, 4 and single samples; after
each loop `cx` is the column where its last chunk *started*, as in the code (`:198,297,391`). -/
def neonColumnLb (d : ℕ) (b : Bounds) (src dst : List ℕ) (stride : ℕ) (weight : List ℤ) : Option (List ℕ) := do
  let (off, cx, r) ← chunkLoop 16 (laneBlock tapQ NEON16_ROUNDING (narrowQ d) 16 b src stride weight) 0 0 dst
  let (off, cx, r) ← chunkLoop 8 (laneBlock tapQ NEON16_ROUNDING (narrowQ d) 8 b src stride weight) off cx r
  let (off, cx, r) ← chunkLoop 4 (laneBlock tapQ NEON16_ROUNDING (narrowQ d) 4 b src stride weight) off cx r
  let (_, _, r) ← chunkLoop 1 (laneBlock tapTail NEON16_ROUNDING (narrowTail d) 1 b src stride weight) off cx r
  some r

/-! ### up to 12 bits: half precision -/

/-- One lane of `xvfmlaq_f16(acc, xvcvtq_f16_u16(v), w)`: the sample converted to half, then fused. Values, as in
`Model/NeonAlphaU16.lean`; an overflow to infinity is outside the model (it needs a sum of 65520 and more). -/
def tapH (a : ℚ) (v : ℕ) (w : ℚ) : ℚ := rnd16 (a + rnd16 (v : ℚ) * w)

/-- `vminq_u16(xvcvtaq_u16_f16(store), v_max_colors)`, one lane. -/
def narrowH (d : ℕ) (v : ℚ) : ℕ := min (vcvta16 v) (2 ^ d - 1)

/-- `convolve_column_lb_u16_f16_impl`, `src/neon/vertical_u16_lb_f16.rs:61-334`; the chunks of four and the single
samples always loop over the window (`:285-305,313-333`), which is what `unrolled24` does as well. -/
def neonColumnHalf (d : ℕ) (b : Bounds) (src dst : List ℕ) (stride : ℕ) (weight : List ℚ) : Option (List ℕ) := do
  let (off, cx, r) ← chunkLoop 16 (laneBlock tapH 0 (narrowH d) 16 b src stride weight) 0 0 dst
  let (off, cx, r) ← chunkLoop 8 (laneBlock tapH 0 (narrowH d) 8 b src stride weight) off cx r
  let (off, cx, r) ← chunkLoop 4 (laneBlock tapH 0 (narrowH d) 4 b src stride weight) off cx r
  let (_, _, r) ← chunkLoop 1 (laneBlock tapH 0 (narrowH d) 1 b src stride weight) off cx r
  some r

/-- `WeightFloat16ConverterCast::prepare_weights`, `src/filter_weights.rs:168-184`, and `convert_weights_to_f16`,
`src/neon/weights.rs:34-70`: every weight rounded to half (blocks of 8, 4 and 1, lane by lane). -/
def halfWeights (fw : FilterWeights ℚ) : FilterWeights ℚ := { fw with weights := fw.weights.map rnd16 }

/-! ### more than 12 bits -/

/-- One lane of `prefer_vfmaq_f32(acc, vcvtq_f32_u32(v), w)`: fused on aarch64 (`src/neon/utils.rs`). -/
def tapF (a : ℚ) (v : ℕ) (w : ℚ) : ℚ := mlaf F32.rnd true a (v : ℚ) w

/-- `vqmovn_u32(vminq_u32(vcvtaq_u32_f32(store), v_max_colors))`, one lane; `src/neon/vertical_u16.rs:218-226,346-349,435-437`.
`vcvtaq_u32_f32`: nearest, ties away from zero, negative to 0, saturating. -/
def narrowF (d : ℕ) (v : ℚ) : ℕ := min (min (min ⌊v + 1 / 2⌋.toNat 4294967295) (2 ^ d - 1)) 65535

/-- One sample of the scalar tail: `mlaf`, fused on AArch64 (`src/mlaf.rs:31-48`); `src/neon/vertical_u16.rs:446-508`. -/
def tapFTail (a : ℚ) (v : ℕ) (w : ℚ) : ℚ := mlaf F32.rnd true a (v : ℚ) w

/-- `f32::round`: nearest integer, ties away from zero. -/
def roundAway (v : ℚ) : ℤ := if 0 ≤ v then ⌊v + 1 / 2⌋ else ⌈v - 1 / 2⌉

/-- `store0.round().max(0.).min(max_colors as f32) as u16`, `src/neon/vertical_u16.rs:511`. -/
def narrowFTail (d : ℕ) (v : ℚ) : ℕ := (min (max (roundAway v) 0) ((2 ^ d - 1 : ℕ) : ℤ)).toNat

/-- `convolve_column_u16`, `src/neon/vertical_u16.rs:35-514`. -/
def neonColumnF32 (d : ℕ) (b : Bounds) (src dst : List ℕ) (stride : ℕ) (weight : List ℚ) :
    Option (List ℕ) := do
  let (off, cx, r) ← chunkLoop 16 (laneBlock tapF 0 (narrowF d) 16 b src stride weight) 0 0 dst
  let (off, cx, r) ← chunkLoop 8 (laneBlock tapF 0 (narrowF d) 8 b src stride weight) off cx r
  let (off, cx, r) ← chunkLoop 4 (laneBlock tapF 0 (narrowF d) 4 b src stride weight) off cx r
  let (_, _, r) ← chunkLoop 1 (laneBlock tapFTail 0 (narrowFTail d) 1 b src stride weight) off cx r
  some r

/-! ### RGBA rows, up to 12 bits -/

/-- The loads of a step: `n` weights and `n` pixels of four samples. -/
def rgbaQLoad (n : ℕ) (core : List ℤ → List ℕ → List ℤ → List ℤ) (src : List ℕ) (w : List ℤ) (b : Bounds)
    (jx o : ℕ) (store : List ℤ) : Option (List ℤ) := do
  let ws ← loadW16 w jx n
  let px ← slice? src (o + (b.start + jx) * 4) (o + (b.start + jx) * 4 + 4 * n)
  some (core ws px store)

/-- `conv_horiz_rgba_1_u16`, `src/neon/rgba_u16_lb.rs:35-46`. -/
def rgbaQ1 (ws : List ℤ) (px : List ℕ) (store : List ℤ) : List ℤ := vtapLane tapQ store px (ws.getD 0 0)

/-- `conv_horiz_rgba_2_u16`, `src/neon/rgba_u16_lb.rs:50-65`. -/
def rgbaQ2 (ws : List ℤ) (px : List ℕ) (store : List ℤ) : List ℤ :=
  vtapLane tapQ (vtapLane tapQ store (quad px 1) (ws.getD 1 0)) (quad px 0) (ws.getD 0 0)

/-- `conv_horiz_rgba_4_u16`, `src/neon/rgba_u16_lb.rs:69-87`. -/
def rgbaQ4 (ws : List ℤ) (px : List ℕ) (store : List ℤ) : List ℤ :=
  let acc := vtapLane tapQ store (quad px 3) (ws.getD 3 0)
  let acc := vtapLane tapQ acc (quad px 2) (ws.getD 2 0)
  let acc := vtapLane tapQ acc (quad px 1) (ws.getD 1 0)
  vtapLane tapQ acc (quad px 0) (ws.getD 0 0)

/-- `conv_horiz_rgba_8_u16`, `src/neon/rgba_u16_lb.rs:91-117`. -/
def rgbaQ8 (ws : List ℤ) (px : List ℕ) (store : List ℤ) : List ℤ :=
  let acc := vtapLane tapQ store (quad px 3) (ws.getD 3 0)
  let acc := vtapLane tapQ acc (quad px 2) (ws.getD 2 0)
  let acc := vtapLane tapQ acc (quad px 1) (ws.getD 1 0)
  let acc := vtapLane tapQ acc (quad px 0) (ws.getD 0 0)
  let acc := vtapLane tapQ acc (quad px 7) (ws.getD 7 0)
  let acc := vtapLane tapQ acc (quad px 6) (ws.getD 6 0)
  let acc := vtapLane tapQ acc (quad px 5) (ws.getD 5 0)
  vtapLane tapQ acc (quad px 4) (ws.getD 4 0)

/-- `convolve_horizontal_rgba_neon_rows_4_lb_u16` and `convolve_horizontal_rgba_neon_u16_lb_row`,
`src/neon/rgba_u16_lb.rs:119-227,229-296`. -/
def rgbaNeonLb16 (d : ℕ) (src : List ℕ) (offs : List ℕ) (w : List ℤ) (b : Bounds) :
    Option (List (List ℕ)) := do
  let st := offs.map fun _ => List.replicate 4 NEON16_ROUNDING
  let (jx, st) ← rowsLoop 8 8 b.size offs (rgbaQLoad 8 rgbaQ8 src w b) 0 st
  let (jx, st) ← rowsLoop 4 4 b.size offs (rgbaQLoad 4 rgbaQ4 src w b) jx st
  let (jx, st) ← rowsLoop 2 2 b.size offs (rgbaQLoad 2 rgbaQ2 src w b) jx st
  let (_, st) ← rowsLoop 0 1 b.size offs (rgbaQLoad 1 rgbaQ1 src w b) jx st
  some (st.map fun acc => (List.range 4).map fun c => narrowQ d (acc.getD c 0))

/-! ### selection -/

/-- `u16::handle_fixed_row_4` on aarch64, `src/handler_provider.rs:365-400`. -/
def fixedRows4Neon (N d : ℕ) (src : List ℕ) (srcStride : ℕ) (dst : List ℕ) (dstStride : ℕ)
    (fw : FilterWeights ℤ) : Option (List ℕ) :=
  if N = 4 then simdRows4 N (rgbaNeonLb16 d src) srcStride dst dstStride fw
  else rows4Fixed N (2 ^ d - 1) src srcStride dst dstStride fw

/-- `u16::handle_fixed_row` on aarch64, `src/handler_provider.rs:486-515`. -/
def fixedRowNeon (N d : ℕ) (src dst : List ℕ) (fw : FilterWeights ℤ) : Option (List ℕ) :=
  if N = 4 then simdRow N (rgbaNeonLb16 d src) dst fw
  else rowFixed N (2 ^ d - 1) src dst fw

/-- u16 images on aarch64: `convolve_vertical_dispatch_u16`, `convolve_horizontal_dispatch_u16`
(`src/dispatch_group_u16.rs:48-427`) with the handlers above; `u16::handle_row`, `handle_row_4` are the scalar ones
(`src/handler_provider.rs:183-235`). `half` is `is_aarch_f16_supported() && workload_strategy == PreferSpeed`
(`src/dispatch_group_u16.rs:200-201,269-270`); `mlaf` of the scalar rows is fused on AArch64. -/
def formatU16Neon (half : Bool) (N : ℕ) : Format ℕ where
  default := 0
  shouldHaveBitDepth := true
  vertical := fun src dst fw =>
    if 12 < dst.bitDepth then
      verticalDispatch N src dst fw.bounds fw.alignedSize fw.weights
        (fun b s d ss w => neonColumnF32 dst.bitDepth b s d ss w)
    else if half then
      let h := halfWeights fw
      verticalDispatch N src dst h.bounds h.alignedSize h.weights
        (fun b s d ss w => neonColumnHalf dst.bitDepth b s d ss w)
    else
      let q := numericalApproximation F32.rnd fw
      verticalDispatch N src dst q.bounds q.alignedSize q.weights
        (fun b s d ss w => neonColumnLb dst.bitDepth b s d ss w)
  horizontal := fun src dst fw =>
    if 12 < dst.bitDepth then
      horizontalDispatch N src dst
        (some fun s ss d ds => rows4Float (u16Ops F32.rnd true dst.bitDepth) N s ss d ds fw)
        (fun s d => rowFloat (u16Ops F32.rnd true dst.bitDepth) N s d fw)
    else
      let q := numericalApproximation F32.rnd fw
      horizontalDispatch N src dst
        (some fun s ss d ds => fixedRows4Neon N dst.bitDepth s ss d ds q)
        (fun s d => fixedRowNeon N dst.bitDepth s d q)

end PicScale
