import Verif.Model.X86F32

/-!
16-bit floating point images (`nightly_f16`): `src/f16.rs`, `src/dispatch_group_f16.rs`, `src/sse/rgb_f16.rs`,
`src/sse/rgba_f16.rs`, `src/sse/vertical_f16.rs`, `src/avx2/rgba_f16.rs`, `src/avx2/vertical_f16.rs`: the
portable handlers and the ones for x86. The NEON handlers are in `Model/NeonF16.lean`.

Half samples have an arbitrary type `H`, the f32 registers an arbitrary type `A`; how halves are widened and
narrowed is a parameter (the bits are in `Model/F16Bits.lean`). A load outside the slice is `none`.
-/

namespace PicScale

/-- Halves and their f32 arithmetic. The compiler's `as f32` / `as f16` and the F16C instructions are assumed to
be the same (IEEE) conversions. -/
structure HalfOps (H A : Type) where
  /-- f32 operations -/
  arith : VecOps A
  /-- the half with all bits zero, also `f16::default()` -/
  zeroH : H
  /-- `h as f32`, one lane of `_mm_cvtph_ps` -/
  widen : H → A
  /-- `v as f16`, one lane of `_mm_cvtps_ph::<_MM_FROUND_TO_NEAREST_INT>` -/
  narrow : A → H
  /-- one lane of `_mm_cvtph_ps_fallback`, `src/sse/f16_utils.rs:99-132` -/
  widenFb : H → A
  /-- one lane of `_mm_cvtps_ph_fallback`, `src/sse/f16_utils.rs:138-180` -/
  narrowFb : A → H

variable {H A : Type}

/-- One lane of `_mm_cvtph_psx::<F16C>`, `src/sse/f16_utils.rs:203-210`. -/
def HalfOps.widenX (o : HalfOps H A) (f16c : Bool) (h : H) : A := if f16c then o.widen h else o.widenFb h
/-- One lane of `_mm_cvtps_phx::<F16C>`, `src/sse/f16_utils.rs:188-195`. -/
def HalfOps.narrowX (o : HalfOps H A) (f16c : Bool) (v : A) : H := if f16c then o.narrow v else o.narrowFb v

/-- An x86 CPU as the f16 code sees it; `fused` is how `mlaf` was compiled (`src/mlaf.rs:31-63`). -/
structure HalfCpu where
  sse41 : Bool
  avx2 : Bool
  f16c : Bool
  fma : Bool
  fused : Bool

/-! ### portable -/

/-- `convolve_horizontal_rgb_native_row_f16`, `src/f16.rs:93-111`: the source row as f32, the f32 row handler into
a zeroed row of the length of `dst`, and every element of that row — also behind the last pixel — back to f16. -/
def rowHalf (o : HalfOps H A) (fused : Bool) (N : ℕ) (src dst : List H) (fw : FilterWeights ℚ) :
    Option (List H) := do
  let t ← rowFloat (o.arith.scalar fused) N (src.map o.widen) (List.replicate dst.length o.arith.zero) fw
  some (t.map o.narrow)

/-- `convolve_horizontal_rgba_4_row_f16`, `src/f16.rs:69-91`. -/
def rows4Half (o : HalfOps H A) (fused : Bool) (N : ℕ) (src : List H) (srcStride : ℕ) (dst : List H)
    (dstStride : ℕ) (fw : FilterWeights ℚ) : Option (List H) := do
  let t ← rows4Float (o.arith.scalar fused) N (src.map o.widen) srcStride
    (List.replicate dst.length o.arith.zero) dstStride fw
  some (t.map o.narrow)

/-- `convolve_vertical_rgb_native_row_f16`, `src/f16.rs:199-220`. -/
def columnHalf (o : HalfOps H A) (fused : Bool) (b : Bounds) (src dst : List H) (stride : ℕ) (weight : List ℚ) :
    Option (List H) := do
  let t ← columnFloat (o.arith.scalar fused) b (src.map o.widen) (List.replicate dst.length o.arith.zero) stride weight
  some (t.map o.narrow)

/-! ### loads -/

/-- `_mm_loadu_si64` of four halves and `_mm_cvtph_ps`. -/
def loadH4 (cv : H → A) (src : List H) (off : ℕ) : Option (List A) :=
  (slice? src off (off + 4)).map fun l => l.map cv
/-- `_mm_loadu_si128` of eight halves, `_mm_cvtph_ps` of it and of `_mm_srli_si128::<8>` of it; also
`_mm256_cvtph_ps` of a 128-bit half. -/
def loadH8 (cv : H → A) (src : List H) (off : ℕ) : Option (List A × List A) :=
  (slice? src off (off + 8)).map fun l => ((l.take 4).map cv, (l.drop 4).map cv)

/-! ### vertical -/

/-- One row for `R` registers of four samples; the code loads eight or sixteen halves at a time, the model four
at a time from the same places. -/
def vStepH (a : VecOps A) (cv : H → A) (fma : Bool) (R : ℕ) (b : Bounds) (src : List H) (stride : ℕ)
    (weight : List ℚ) (sx j : ℕ) (st : List (List A)) : Option (List (List A)) := do
  let w ← weight[j]?
  ((List.range R).zip st).mapM fun rs => do
    let row ← loadH4 cv src (stride * (b.start + j) + sx + 4 * rs.1)
    some (preferV a fma rs.2 row (set1v (a.weight w)))

/-- `4 R` samples: `convolve_vertical_part_sse_{16_16,8_f16,4_f16}` (`R = 4, 2, 1`,
`src/sse/vertical_f16.rs:72-191`), `convolve_vertical_part_avx_{32,16,4}_f16` (`R = 8, 4, 1`,
`src/avx2/vertical_f16.rs:77-203`; of the 256-bit register of the last one the low half, the only one that is
stored). -/
def vBlockH (a : VecOps A) (cv : H → A) (nv : A → H) (fma : Bool) (R : ℕ) (b : Bounds) (src : List H) (stride : ℕ)
    (weight : List ℚ) (sx : ℕ) (dst : List H) : Option (List H) := do
  let st ← forRange 0 b.size (vStepH a cv fma R b src stride weight sx) (List.replicate R (set1v a.zero))
  writeAt? dst sx (st.flatten.map nv)

/-- One sample, in every lane: `convolve_vertical_part_sse_f16` (`src/sse/vertical_f16.rs:40-69`),
`convolve_vertical_part_avx_f16` (`src/avx2/vertical_f16.rs:38-75`). Lane 0 is stored. -/
def vTailH (a : VecOps A) (cv : H → A) (nv : A → H) (fma : Bool) (b : Bounds) (src : List H) (stride : ℕ)
    (weight : List ℚ) (sx : ℕ) (dst : List H) : Option (List H) := do
  let st ← forRange 0 b.size (fun j (st : List A) => do
    let w ← weight[j]?
    let v ← src[stride * (b.start + j) + sx]?
    some (preferV a fma st (set1v (cv v)) (set1v (a.weight w)))) (set1v a.zero)
  writeAt? dst sx ((st.take 1).map nv)

/-- `convolve_vertical_sse_row_f16_impl`, `src/sse/vertical_f16.rs:266-339`. -/
def sseColumnH (a : VecOps A) (cv : H → A) (nv : A → H) (fma : Bool) (b : Bounds) (src dst : List H) (stride : ℕ)
    (weight : List ℚ) : Option (List H) := do
  let total := dst.length
  let (cx, d) ← whileBlocks 16 16 total (vBlockH a cv nv fma 4 b src stride weight) total 0 dst
  let (cx, d) ← whileBlocks 8 8 total (vBlockH a cv nv fma 2 b src stride weight) total cx d
  let (cx, d) ← whileBlocks 4 4 total (vBlockH a cv nv fma 1 b src stride weight) total cx d
  let (_, d) ← whileBlocks 0 1 total (vTailH a cv nv fma b src stride weight) total cx d
  some d

/-- `convolve_vertical_avx_row_f16_impl`, `src/avx2/vertical_f16.rs:249-315`. -/
def avxColumnH (a : VecOps A) (cv : H → A) (nv : A → H) (fma : Bool) (b : Bounds) (src dst : List H) (stride : ℕ)
    (weight : List ℚ) : Option (List H) := do
  let total := dst.length
  let (cx, d) ← whileBlocks 32 32 total (vBlockH a cv nv fma 8 b src stride weight) total 0 dst
  let (cx, d) ← whileBlocks 16 16 total (vBlockH a cv nv fma 4 b src stride weight) total cx d
  let (cx, d) ← whileBlocks 4 4 total (vBlockH a cv nv fma 1 b src stride weight) total cx d
  let (_, d) ← whileBlocks 0 1 total (vTailH a cv nv fma b src stride weight) total cx d
  some d

/-! ### three channels, SSE4.1 -/

/-- `_mm_shuffle_epi32::<shuffle(z, y, x, w)>(v)`, `_mm_shuffle_ps` order: lanes `w, x, y, z`. -/
def shuffleV (a : VecOps A) (v : List A) (w x y z : ℕ) : List A :=
  [v.getD w a.zero, v.getD x a.zero, v.getD y a.zero, v.getD z a.zero]
/-- `_mm_move_ss(p, q)`: lane 0 of `q`, the other lanes of `p`. -/
def moveSs (a : VecOps A) (p q : List A) : List A :=
  [q.getD 0 a.zero, p.getD 1 a.zero, p.getD 2 a.zero, p.getD 3 a.zero]
/-- `_mm_unpackhi_epi64(p, q)`: the high halves. -/
def unpackHi64 (a : VecOps A) (p q : List A) : List A :=
  [p.getD 2 a.zero, p.getD 3 a.zero, q.getD 2 a.zero, q.getD 3 a.zero]
/-- `_mm_movelh_ps(p, q)`: the low halves. -/
def moveLh (a : VecOps A) (p q : List A) : List A :=
  [p.getD 0 a.zero, p.getD 1 a.zero, q.getD 0 a.zero, q.getD 1 a.zero]

/-- `convolve_horizontal_parts_4_rgb_f16`, `src/sse/rgb_f16.rs:40-86`: twelve halves, `rgbr`, `gbrg`, `brgb`. -/
def rgbPx4H (a : VecOps A) (cv : H → A) (fma : Bool) (src : List H) (w : List ℚ) (b : Bounds) (jx off : ℕ)
    (store : List A) : Option (List A) := do
  let ws ← loadW a w jx 4
  let first ← loadH8 cv src (off + (b.start + jx) * 3)
  let brgb ← loadH4 cv src (off + (b.start + jx) * 3 + 8)
  let rgbr := first.1
  let gbrg := first.2
  let p1 := moveSs a (shuffleV a gbrg 0 0 1 2) (shuffleV a rgbr 3 1 2 3)
  let p2 := moveLh a (unpackHi64 a gbrg gbrg) brgb
  let p3 := shuffleV a brgb 1 2 3 3
  let acc := preferV a fma store rgbr (splat a 0 ws)
  let acc := preferV a fma acc p1 (splat a 1 ws)
  let acc := preferV a fma acc p2 (splat a 2 ws)
  some (preferV a fma acc p3 (splat a 3 ws))

/-- `convolve_horizontal_parts_2_rgb_f16`, `src/sse/rgb_f16.rs:89-119`: four halves and two halves; `zh` is the
half in the lanes filled with zero bits. -/
def rgbPx2H (a : VecOps A) (cv : H → A) (zh : H) (fma : Bool) (src : List H) (w : List ℚ) (b : Bounds)
    (jx off : ℕ) (store : List A) : Option (List A) := do
  let ws ← loadW a w jx 2
  let orig1 ← loadH4 cv src (off + (b.start + jx) * 3)
  let two ← slice? src (off + (b.start + jx) * 3 + 4) (off + (b.start + jx) * 3 + 6)
  let orig2 := shuffleV a ((two ++ [zh, zh]).map cv) 0 0 1 2
  let p1 := moveSs a orig2 (shuffleV a orig1 3 1 2 3)
  let acc := preferV a fma store orig1 (splat a 0 ws)
  some (preferV a fma acc p1 (splat a 1 ws))

/-- `convolve_horizontal_parts_one_rgb_f16`, `src/sse/rgb_f16.rs:122-145`: two halves and one half. -/
def rgbPx1H (a : VecOps A) (cv : H → A) (zh : H) (fma : Bool) (src : List H) (w : List ℚ) (b : Bounds)
    (jx off : ℕ) (store : List A) : Option (List A) := do
  let weight ← w[jx]?
  let two ← slice? src (off + (b.start + jx) * 3) (off + (b.start + jx) * 3 + 2)
  let last ← src[off + (b.start + jx) * 3 + 2]?
  some (preferV a fma store ((two ++ [last, zh]).map cv) (set1v (a.weight weight)))

/-- `convolve_horizontal_rgb_sse_row_one_f16_impl` and `convolve_horizontal_rgb_sse_rows_4_f16_impl`,
`src/sse/rgb_f16.rs:244-320,439-608`: lanes 0, 1 and 2 are stored. -/
def rgbSseH (a : VecOps A) (cv : H → A) (nv : A → H) (zh : H) (fma : Bool) (src : List H) (offs : List ℕ)
    (w : List ℚ) (b : Bounds) : Option (List (List H)) := do
  let st := offs.map fun _ => set1v a.zero
  let (jx, st) ← rowsLoop 4 4 b.size offs (rgbPx4H a cv fma src w b) 0 st
  let (jx, st) ← rowsLoop 2 2 b.size offs (rgbPx2H a cv zh fma src w b) jx st
  let (_, st) ← rowsLoop 0 1 b.size offs (rgbPx1H a cv zh fma src w b) jx st
  some (st.map fun s => (s.take 3).map nv)

/-! ### four channels, SSE4.1 -/

/-- `convolve_horizontal_parts_4_rgba_f16`, `src/sse/rgba_f16.rs:56-80`. -/
def rgbaPx4H (a : VecOps A) (cv : H → A) (fma : Bool) (src : List H) (w : List ℚ) (b : Bounds) (jx off : ℕ)
    (store : List A) : Option (List A) := do
  let ws ← loadW a w jx 4
  let row0 ← loadH8 cv src (off + (b.start + jx) * 4)
  let row1 ← loadH8 cv src (off + (b.start + jx) * 4 + 8)
  let acc := preferV a fma store row0.1 (splat a 0 ws)
  let acc := preferV a fma acc row0.2 (splat a 1 ws)
  let acc := preferV a fma acc row1.1 (splat a 2 ws)
  some (preferV a fma acc row1.2 (splat a 3 ws))

/-- `convolve_horizontal_parts_2_rgba_f16`, `src/sse/rgba_f16.rs:83-101`. -/
def rgbaPx2H (a : VecOps A) (cv : H → A) (fma : Bool) (src : List H) (w : List ℚ) (b : Bounds) (jx off : ℕ)
    (store : List A) : Option (List A) := do
  let ws ← loadW a w jx 2
  let row ← loadH8 cv src (off + (b.start + jx) * 4)
  let acc := preferV a fma store row.1 (splat a 0 ws)
  some (preferV a fma acc row.2 (splat a 1 ws))

/-- `convolve_horizontal_parts_one_rgba_f16`, `src/sse/rgba_f16.rs:42-53`. -/
def rgbaPx1H (a : VecOps A) (cv : H → A) (fma : Bool) (src : List H) (w : List ℚ) (b : Bounds) (jx off : ℕ)
    (store : List A) : Option (List A) := do
  let weight ← w[jx]?
  let px ← loadH4 cv src (off + (b.start + jx) * 4)
  some (preferV a fma store px (set1v (a.weight weight)))

/-- `convolve_horizontal_rgba_sse_row_one_f16_impl` and `convolve_horizontal_rgba_sse_rows_4_f16_impl`,
`src/sse/rgba_f16.rs:196-270,385-540`. -/
def rgbaSseH (a : VecOps A) (cv : H → A) (nv : A → H) (fma : Bool) (src : List H) (offs : List ℕ)
    (w : List ℚ) (b : Bounds) : Option (List (List H)) := do
  let st := offs.map fun _ => set1v a.zero
  let (jx, st) ← rowsLoop 4 4 b.size offs (rgbaPx4H a cv fma src w b) 0 st
  let (jx, st) ← rowsLoop 2 2 b.size offs (rgbaPx2H a cv fma src w b) jx st
  let (_, st) ← rowsLoop 0 1 b.size offs (rgbaPx1H a cv fma src w b) jx st
  some (st.map fun s => s.map nv)

/-! ### four channels, AVX2 and F16C -/

/-- `2 R` pixels: `convolve_horizontal_parts_{8,4,2}_rgba_f16` (`R = 4, 2, 1`, `src/avx2/rgba_f16.rs:53-111`), the
weights as in `rgbaAvxPxR`; register `t` gets halves `8 t … 8 t + 7`, which the code loads sixteen at a time. -/
def rgbaAvxPxRH (a : VecOps A) (cv : H → A) (fma : Bool) (R : ℕ) (src : List H) (w : List ℚ) (b : Bounds)
    (jx off : ℕ) (store : List A × List A) : Option (List A × List A) :=
  forRange 0 R (fun t st => do
    let ws ← loadW a w (jx + 2 * t) 2
    let px ← loadH8 cv src (off + (b.start + jx) * 4 + 8 * t)
    some (preferV2 a fma st px (splat a 0 ws, splat a 1 ws))) store

/-- `convolve_horizontal_parts_one_rgba_f16`, `src/avx2/rgba_f16.rs:39-50`. -/
def rgbaAvxPx1H (a : VecOps A) (cv : H → A) (fma : Bool) (src : List H) (w : List ℚ) (b : Bounds) (jx off : ℕ)
    (store : List A × List A) : Option (List A × List A) := do
  let weight ← w[jx]?
  let p0 ← loadH4 cv src (off + (b.start + jx) * 4)
  some (preferV2 a fma store (p0, set1v a.zero) (set1v (a.weight weight), set1v (a.weight weight)))

/-- `convolve_horizontal_rgba_avx_row_one_f16_impl` and `convolve_horizontal_rgba_avx_rows_4_f16_impl`,
`src/avx2/rgba_f16.rs:178-262,343-541`. -/
def rgbaAvxH (a : VecOps A) (cv : H → A) (nv : A → H) (fma : Bool) (src : List H) (offs : List ℕ)
    (w : List ℚ) (b : Bounds) : Option (List (List H)) := do
  let st := offs.map fun _ => (set1v a.zero, set1v a.zero)
  let (jx, st) ← rowsLoop 8 8 b.size offs (rgbaAvxPxRH a cv fma 4 src w b) 0 st
  let (jx, st) ← rowsLoop 4 4 b.size offs (rgbaAvxPxRH a cv fma 2 src w b) jx st
  let (jx, st) ← rowsLoop 2 2 b.size offs (rgbaAvxPxRH a cv fma 1 src w b) jx st
  let (_, st) ← rowsLoop 0 1 b.size offs (rgbaAvxPx1H a cv fma src w b) jx st
  some (st.map fun s => (List.zipWith (fun x y => a.add x y) s.1 s.2).map nv)

/-! ### selection -/

/-- `convolve_vertical` of f16 images, `src/f16.rs:222-290,372-440,468-536,564-end`: the same for every number of
channels. SSE4.1 never uses FMA. -/
def columnF16 (cpu : HalfCpu) (o : HalfOps H A) (b : Bounds) (src dst : List H) (stride : ℕ) (weight : List ℚ) :
    Option (List H) :=
  if cpu.avx2 ∧ cpu.f16c then avxColumnH o.arith o.widen o.narrow cpu.fma b src dst stride weight
  else if cpu.sse41 then sseColumnH o.arith (o.widenX cpu.f16c) (o.narrowX cpu.f16c) false b src dst stride weight
  else columnHalf o cpu.fused b src dst stride weight

/-- `_dispatcher_4_rows` of `convolve_horizontal`, `src/f16.rs:113-197,292-370,442-466,538-562`: one and two
channels always use the portable code; three channels use FMA if there is F16C. -/
def rows4F16 (cpu : HalfCpu) (o : HalfOps H A) (N : ℕ) (src : List H) (srcStride : ℕ) (dst : List H)
    (dstStride : ℕ) (fw : FilterWeights ℚ) : Option (List H) :=
  if N = 4 ∧ cpu.avx2 ∧ cpu.f16c then
    simdRows4 N (rgbaAvxH o.arith o.widen o.narrow cpu.fma src) srcStride dst dstStride fw
  else if N = 4 ∧ cpu.sse41 then
    simdRows4 N (rgbaSseH o.arith (o.widenX cpu.f16c) (o.narrowX cpu.f16c) false src) srcStride dst dstStride fw
  else if N = 3 ∧ cpu.sse41 then
    simdRows4 N (rgbSseH o.arith (o.widenX cpu.f16c) (o.narrowX cpu.f16c) o.zeroH (cpu.f16c && cpu.fma) src)
      srcStride dst dstStride fw
  else rows4Half o cpu.fused N src srcStride dst dstStride fw

/-- `_dispatcher_row` of `convolve_horizontal`. -/
def rowF16 (cpu : HalfCpu) (o : HalfOps H A) (N : ℕ) (src dst : List H) (fw : FilterWeights ℚ) :
    Option (List H) :=
  if N = 4 ∧ cpu.avx2 ∧ cpu.f16c then simdRow N (rgbaAvxH o.arith o.widen o.narrow cpu.fma src) dst fw
  else if N = 4 ∧ cpu.sse41 then
    simdRow N (rgbaSseH o.arith (o.widenX cpu.f16c) (o.narrowX cpu.f16c) false src) dst fw
  else if N = 3 ∧ cpu.sse41 then
    simdRow N (rgbSseH o.arith (o.widenX cpu.f16c) (o.narrowX cpu.f16c) o.zeroH (cpu.f16c && cpu.fma) src) dst fw
  else rowHalf o cpu.fused N src dst fw

/-- f16 images: `convolve_vertical_dispatch_f16`, `convolve_horizontal_dispatch_f16`
(`src/dispatch_group_f16.rs:39-end`) with the handlers above; no bit depth is checked
(`CheckStoreDensity`, `src/image_store.rs:204-210`). -/
def formatF16 (cpu : HalfCpu) (o : HalfOps H A) (N : ℕ) : Format H where
  default := o.zeroH
  shouldHaveBitDepth := false
  vertical := fun src dst fw =>
    verticalDispatch N src dst fw.bounds fw.alignedSize fw.weights
      (fun b s d ss w => columnF16 cpu o b s d ss w)
  horizontal := fun src dst fw =>
    horizontalDispatch N src dst
      (some fun s ss d ds => rows4F16 cpu o N s ss d ds fw)
      (fun s d => rowF16 cpu o N s d fw)

end PicScale
