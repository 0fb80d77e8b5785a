import Verif.Model.F16Bits

/-!
16-bit floating point images on AArch64 (`nightly_f16`): `src/neon/vertical_f16.rs`, `src/neon/rgb_f16.rs`,
`src/neon/rgba_f16.rs`, `src/neon/convolve_f16.rs`, the variants of them in `*_f16_fhm.rs` and `*_f16_full.rs`,
`src/neon/weights.rs`, and the selection in `src/f16.rs`.

The three variants have the same loops. They differ in the arithmetic, and in two loads of the RGB code; both
are fields of `NeonLanes`. A register is a list of four lanes, also where the code uses eight at a time. A load
outside the slice is `none`.
-/

namespace PicScale

variable {H A B : Type}

/-- One variant of the NEON handlers: the accumulators have type `B`. -/
structure NeonLanes (H B : Type) where
  /-- arithmetic of the accumulators; `weight` is a weight of the table as it is multiplied -/
  arith : VecOps B
  /-- a source half as it is multiplied -/
  cv : H → B
  /-- an accumulator as it is stored -/
  nv : B → H
  /-- where the second load of four RGB pixels starts -/
  rgb4 : ℕ
  /-- where the third channel of a single RGB pixel is loaded from -/
  rgb1 : ℕ

/-- `rgb_f16.rs`, `rgba_f16.rs`, `vertical_f16.rs`: f32 accumulators, `vfmaq_f32`, `fcvtl`, `fcvtn`
(`src/neon/f16_utils.rs:180-210`). The loads are at `src/neon/rgb_f16.rs:58-59,122-123`. -/
def lanesBase (o : HalfOps H A) : NeonLanes H A := ⟨o.arith, o.widen, o.narrow, 8, 2⟩

/-- `*_f16_fhm.rs`: the table is converted to halves first (`WeightFloat16Converter`,
`src/filter_weights.rs:186-213`; `convert_weights_to_f16_impl`, `src/neon/weights.rs:38-70`: every weight by
`fcvtn`), then `fmlal`/`fmlal2` (`src/neon/f16_utils.rs:373-665`) multiply halves exactly and add to f32
accumulators with one rounding. The loads are at `src/neon/rgb_f16_fhm.rs:57-58,128-129`. -/
def lanesFhm (o : HalfOps H A) : NeonLanes H A :=
  ⟨{ o.arith with weight := fun w => o.widen (o.narrow (o.arith.weight w)) }, o.widen, o.narrow, 8, 2⟩

/-- `*_f16_full.rs`: half accumulators, `fmla .4h` / `.8h` (`src/neon/f16_utils.rs:345-367,670-860`; arithmetic
`h`), weights converted by `fcvtn`. The second load of `conv_horiz_4_rgb_f16` starts where the first does
(`src/neon/rgb_f16_full.rs:58-59`: `xvldq_f16(src_ptr)`, `xvld_f16(src_ptr)`), and the third channel of
`conv_horiz_1_rgb_f16` is loaded from the first (`:130-132`: both `src_ptr`). -/
def lanesFull (o : HalfOps H A) (h : VecOps H) : NeonLanes H H :=
  ⟨{ h with weight := fun w => o.narrow (o.arith.weight w) }, id, id, 0, 0⟩

/-- `fmla .4h` / `.8h` on patterns of halves (`src/neon/f16_utils.rs:345-367`): one rounding to a half. Infinities and
NaN are not modelled; the field `weight` is not used. -/
def F16.halfVec : VecOps ℕ where
  weight := F16.enc
  zero := 0
  mul := fun a b => F16.enc (F16.dec a * F16.dec b)
  add := fun a b => F16.enc (F16.dec a + F16.dec b)
  fma := fun a b c => F16.enc (F16.dec a * F16.dec b + F16.dec c)

/-! ### vertical -/

/-- `left ≤ 8` samples through a buffer of eight halves, zero behind them:
`convolve_vertical_part_neon_8_f16::<true>` (`src/neon/convolve_f16.rs:36-84`),
`convolve_vertical_part_neon_8_f16_fhm::<true>` (`src/neon/vertical_f16_fhm.rs:213-258`),
`xconvolve_vertical_part_neon_8_f16::<true>` (`src/neon/vertical_f16_full.rs:35-77`). -/
def vPartH (v : NeonLanes H B) (zh : H) (left : ℕ) (b : Bounds) (src : List H) (stride : ℕ)
    (weight : List ℚ) (sx : ℕ) (dst : List H) : Option (List H) := do
  let st ← forRange 0 b.size (fun j (st : List B × List B) => do
    let w ← weight[j]?
    let row ← slice? src (stride * (b.start + j) + sx) (stride * (b.start + j) + sx + left)
    let t := row ++ List.replicate (8 - left) zh
    some (preferV v.arith true st.1 ((t.take 4).map v.cv) (set1v (v.arith.weight w)),
      preferV v.arith true st.2 ((t.drop 4).map v.cv) (set1v (v.arith.weight w))))
    (set1v v.arith.zero, set1v v.arith.zero)
  writeAt? dst sx (((st.1 ++ st.2).take left).map v.nv)

/-- `convolve_vertical_rgb_neon_row_f16` (`src/neon/vertical_f16.rs:240-302`; blocks of 48, 32, 16 samples at
`:37-238`, of 8 `src/neon/convolve_f16.rs`), `convolve_vertical_rgb_neon_row_f16_impl`
(`src/neon/vertical_f16_fhm.rs:260-323`), `xconvolve_vertical_rgb_neon_row_f16_impl`
(`src/neon/vertical_f16_full.rs:195-258`). -/
def neonColumnH (v : NeonLanes H B) (zh : H) (b : Bounds) (src dst : List H) (stride : ℕ) (weight : List ℚ) :
    Option (List H) := do
  let total := dst.length
  let blk := fun R => vBlockH v.arith v.cv v.nv true R b src stride weight
  let (cx, d) ← whileBlocks 48 48 total (blk 12) total 0 dst
  let (cx, d) ← whileBlocks 32 32 total (blk 8) total cx d
  let (cx, d) ← whileBlocks 16 16 total (blk 4) total cx d
  let (cx, d) ← whileBlocks 8 8 total (blk 2) total cx d
  if 0 < total - cx then vPartH v zh (total - cx) b src stride weight cx d else some d

/-! ### three channels -/

/-- `vext_u16::<n>(p, q)`. -/
def vextH (n : ℕ) (p q : List H) : List H := (p.drop n ++ q).take 4

/-- `conv_horiz_4_rgb_f16`: `src/neon/rgb_f16.rs:49-85`, `src/neon/rgb_f16_fhm.rs:48-87`,
`src/neon/rgb_f16_full.rs:49-86`. Lane 3 of the fourth pixel, which is never stored, is zero in the last one. -/
def rgbPx4NeonH (v : NeonLanes H B) (src : List H) (w : List ℚ) (b : Bounds) (jx off : ℕ) (store : List B) :
    Option (List B) := do
  let ws ← loadW v.arith w jx 4
  let s ← slice? src (off + (b.start + jx) * 3) (off + (b.start + jx) * 3 + 8)
  let n ← slice? src (off + (b.start + jx) * 3 + v.rgb4) (off + (b.start + jx) * 3 + v.rgb4 + 4)
  let acc := preferV v.arith true store ((s.take 4).map v.cv) (splat v.arith 0 ws)
  let acc := preferV v.arith true acc ((vextH 3 (s.take 4) (s.drop 4)).map v.cv) (splat v.arith 1 ws)
  let acc := preferV v.arith true acc ((vextH 2 (s.drop 4) n).map v.cv) (splat v.arith 2 ws)
  some (preferV v.arith true acc ((vextH 1 n n).map v.cv) (splat v.arith 3 ws))

/-- `conv_horiz_2_rgb_f16`: `src/neon/rgb_f16.rs:89-112`, `src/neon/rgb_f16_fhm.rs:91-116`,
`src/neon/rgb_f16_full.rs:90-118` (which clears lane 3, never stored). -/
def rgbPx2NeonH (v : NeonLanes H B) (zh : H) (src : List H) (w : List ℚ) (b : Bounds) (jx off : ℕ)
    (store : List B) : Option (List B) := do
  let ws ← loadW v.arith w jx 2
  let s ← slice? src (off + (b.start + jx) * 3) (off + (b.start + jx) * 3 + 4)
  let n ← slice? src (off + (b.start + jx) * 3 + 4) (off + (b.start + jx) * 3 + 6)
  let acc := preferV v.arith true store (s.map v.cv) (splat v.arith 0 ws)
  some (preferV v.arith true acc ((vextH 3 s (n ++ [zh, zh])).map v.cv) (splat v.arith 1 ws))

/-- `conv_horiz_1_rgb_f16`: `src/neon/rgb_f16.rs:115-130`, `src/neon/rgb_f16_fhm.rs:119-134`,
`src/neon/rgb_f16_full.rs:121-136`. -/
def rgbPx1NeonH (v : NeonLanes H B) (zh : H) (src : List H) (w : List ℚ) (b : Bounds) (jx off : ℕ)
    (store : List B) : Option (List B) := do
  let weight ← w[jx]?
  let two ← slice? src (off + (b.start + jx) * 3) (off + (b.start + jx) * 3 + 2)
  let last ← src[off + (b.start + jx) * 3 + v.rgb1]?
  some (preferV v.arith true store ((two ++ [last, zh]).map v.cv) (set1v (v.arith.weight weight)))

/-- `convolve_horizontal_rgb_neon_rows_4_f16`, `convolve_horizontal_rgb_neon_row_one_f16`
(`src/neon/rgb_f16.rs:132-265`), and the same in `src/neon/rgb_f16_fhm.rs:136-301`,
`src/neon/rgb_f16_full.rs:138-309`: lanes 0, 1 and 2 are stored. -/
def rgbNeonH (v : NeonLanes H B) (zh : H) (src : List H) (offs : List ℕ) (w : List ℚ) (b : Bounds) :
    Option (List (List H)) := do
  let st := offs.map fun _ => set1v v.arith.zero
  let (jx, st) ← rowsLoop 4 4 b.size offs (rgbPx4NeonH v src w b) 0 st
  let (jx, st) ← rowsLoop 2 2 b.size offs (rgbPx2NeonH v zh src w b) jx st
  let (_, st) ← rowsLoop 0 1 b.size offs (rgbPx1NeonH v zh src w b) jx st
  some (st.map fun s => (s.take 3).map v.nv)

/-! ### four channels -/

/-- `conv_horiz_rgba_8_f16`: `src/neon/rgba_f16.rs:44-66`, `src/neon/rgba_f16_fhm.rs:44-63`,
`src/neon/rgba_f16_full.rs:44-65`: eight pixels in order. -/
def rgbaPx8NeonH (v : NeonLanes H B) (src : List H) (w : List ℚ) (b : Bounds) (jx off : ℕ) (store : List B) :
    Option (List B) := do
  let acc ← rgbaPx4H v.arith v.cv true src w b jx off store
  rgbaPx4H v.arith v.cv true src w b (jx + 4) off acc

/-- `conv_horiz_rgba_4_f16`: `src/neon/rgba_f16.rs:69-85`, `src/neon/rgba_f16_fhm.rs:67-83`,
`src/neon/rgba_f16_full.rs:68-84`: two registers of eight halves; the fourth weight is multiplied with the high
half of the first register (`:84`, `:82`, `:83`), which is the second pixel. -/
def rgbaPx4NeonH (v : NeonLanes H B) (src : List H) (w : List ℚ) (b : Bounds) (jx off : ℕ) (store : List B) :
    Option (List B) := do
  let ws ← loadW v.arith w jx 4
  let row0 ← loadH8 v.cv src (off + (b.start + jx) * 4)
  let row1 ← loadH8 v.cv src (off + (b.start + jx) * 4 + 8)
  let acc := preferV v.arith true store row0.1 (splat v.arith 0 ws)
  let acc := preferV v.arith true acc row0.2 (splat v.arith 1 ws)
  let acc := preferV v.arith true acc row1.1 (splat v.arith 2 ws)
  some (preferV v.arith true acc row0.2 (splat v.arith 3 ws))

/-- `convolve_horizontal_rgba_neon_row_one_f16` (`eight = false`, `src/neon/rgba_f16.rs:117-165`) and
`convolve_horizontal_rgba_neon_rows_4_f16` (`eight = true`, `:167-286`), and the same in
`src/neon/rgba_f16_fhm.rs:115-294`, `src/neon/rgba_f16_full.rs:116-305`; two pixels and one pixel
(`src/neon/rgba_f16.rs:88-114`, …) as in the SSE code. -/
def rgbaNeonH (v : NeonLanes H B) (eight : Bool) (src : List H) (offs : List ℕ) (w : List ℚ) (b : Bounds) :
    Option (List (List H)) := do
  let st := offs.map fun _ => set1v v.arith.zero
  let (jx, st) ← (if eight then rowsLoop 8 8 b.size offs (rgbaPx8NeonH v src w b) 0 st else some (0, st))
  let (jx, st) ← rowsLoop 4 4 b.size offs (rgbaPx4NeonH v src w b) jx st
  let (jx, st) ← rowsLoop 2 2 b.size offs (rgbaPx2H v.arith v.cv true src w b) jx st
  let (_, st) ← rowsLoop 0 1 b.size offs (rgbaPx1H v.arith v.cv true src w b) jx st
  some (st.map fun s => s.map v.nv)

/-! ### selection -/

/-- An AArch64 CPU as the f16 code sees it (`src/cpu_features.rs`): `is_aarch_f16c_supported`,
`is_aarch_f16_supported`, and the detected feature `fhm`. -/
structure NeonHalfCpu where
  f16c : Bool
  fp16 : Bool
  fhm : Bool

/-- Which handlers are used. -/
inductive HalfPath
  | portable
  | base
  | fhm
  | full
  deriving DecidableEq

/-- `convolve_vertical`, `src/f16.rs:222-258,372-408,468-504,564-600`, the same for every number of channels. -/
def pathV (cpu : NeonHalfCpu) (s : Workload) : HalfPath :=
  if cpu.f16c then
    match s with
    | .preferQuality => if cpu.fhm then .fhm else .base
    | .preferSpeed => if cpu.fp16 then .full else .base
  else .portable

/-- `convolve_horizontal`: four channels `src/f16.rs:128-160`; three channels `:307-341`, where the second choice
does not ask for `f16c`; one and two channels `:442-466,538-562`. -/
def pathH (cpu : NeonHalfCpu) (s : Workload) (N : ℕ) : HalfPath :=
  if N = 4 then pathV cpu s
  else if N = 3 then
    match s with
    | .preferQuality => if cpu.fhm then .fhm else if cpu.f16c then .base else .portable
    | .preferSpeed => if cpu.fp16 then .full else if cpu.f16c then .base else .portable
  else .portable

/-- The vertical handler of a path; `mlaf` of the portable code is fused on AArch64 (`src/mlaf.rs:31-48`). -/
def columnNeonH (o : HalfOps H A) (h : VecOps H) (p : HalfPath) (b : Bounds) (src dst : List H) (stride : ℕ)
    (weight : List ℚ) : Option (List H) :=
  match p with
  | .portable => columnHalf o true b src dst stride weight
  | .base => neonColumnH (lanesBase o) o.zeroH b src dst stride weight
  | .fhm => neonColumnH (lanesFhm o) o.zeroH b src dst stride weight
  | .full => neonColumnH (lanesFull o h) o.zeroH b src dst stride weight

/-- The horizontal vector handler of a variant, for four rows (`eight`) or one. -/
def handlerNeonH (v : NeonLanes H B) (zh : H) (N : ℕ) (eight : Bool) (src : List H) :
    List ℕ → List ℚ → Bounds → Option (List (List H)) :=
  if N = 4 then rgbaNeonH v eight src else rgbNeonH v zh src

/-- `_dispatcher_4_rows` of a path. -/
def rows4NeonH (o : HalfOps H A) (h : VecOps H) (p : HalfPath) (N : ℕ) (src : List H) (srcStride : ℕ) (dst : List H)
    (dstStride : ℕ) (fw : FilterWeights ℚ) : Option (List H) :=
  match p with
  | .portable => rows4Half o true N src srcStride dst dstStride fw
  | .base => simdRows4 N (handlerNeonH (lanesBase o) o.zeroH N true src) srcStride dst dstStride fw
  | .fhm => simdRows4 N (handlerNeonH (lanesFhm o) o.zeroH N true src) srcStride dst dstStride fw
  | .full => simdRows4 N (handlerNeonH (lanesFull o h) o.zeroH N true src) srcStride dst dstStride fw

/-- `_dispatcher_row` of a path. -/
def rowNeonH (o : HalfOps H A) (h : VecOps H) (p : HalfPath) (N : ℕ) (src dst : List H) (fw : FilterWeights ℚ) :
    Option (List H) :=
  match p with
  | .portable => rowHalf o true N src dst fw
  | .base => simdRow N (handlerNeonH (lanesBase o) o.zeroH N false src) dst fw
  | .fhm => simdRow N (handlerNeonH (lanesFhm o) o.zeroH N false src) dst fw
  | .full => simdRow N (handlerNeonH (lanesFull o h) o.zeroH N false src) dst fw

/-- f16 images on AArch64: `src/dispatch_group_f16.rs:39-end` with the handlers above. -/
def formatF16Neon (cpu : NeonHalfCpu) (s : Workload) (o : HalfOps H A) (h : VecOps H) (N : ℕ) : Format H where
  default := o.zeroH
  shouldHaveBitDepth := false
  vertical := fun src dst fw =>
    verticalDispatch N src dst fw.bounds fw.alignedSize fw.weights
      (fun b s' d ss w => columnNeonH o h (pathV cpu s) b s' d ss w)
  horizontal := fun src dst fw =>
    horizontalDispatch N src dst
      (some fun s' ss d ds => rows4NeonH o h (pathH cpu s N) N s' ss d ds fw)
      (fun s' d => rowNeonH o h (pathH cpu s N) N s' d fw)

end PicScale
