import Verif.Model.X86
import Verif.Model.Formats

/-!
The f32 convolution passes on `x86_64` with the default features (`sse`, `avx`):
`src/sse/vertical_f32.rs`, `src/avx2/vertical_f32.rs`, `src/sse/plane_f32.rs`, `src/sse/rgb_f32.rs`,
`src/sse/rgba_f32.rs`, `src/avx2/rgba_f32.rs`, and the selection in `src/plane_f32.rs`, `src/cbcr_f32.rs`,
`src/rgb_f32.rs`, `src/rgba_f32.rs`.

The samples have an arbitrary type `A` with arbitrary arithmetic, so NaN, infinities and signed zeros are
covered. A 128-bit register is a list of four values; a 256-bit register is a pair (low half, high half), and
a 256-bit load or store is two adjacent 128-bit ones. A load outside the slice is `none`.
-/

namespace PicScale

/-- The f32 operations the vector handlers use. -/
structure VecOps (A : Type) where
  /-- a table weight, as stored -/
  weight : ℚ → A
  zero : A
  /-- one lane of `_mm_mul_ps` -/
  mul : A → A → A
  /-- one lane of `_mm_add_ps` -/
  add : A → A → A
  /-- one lane of `_mm_fmadd_ps(a, b, c)`: `a * b + c` -/
  fma : A → A → A → A

/-- The scalar handlers with the same arithmetic; `fused` is how `mlaf` was compiled (`src/mlaf.rs:31-63`). -/
def VecOps.scalar {A : Type} (o : VecOps A) (fused : Bool) : FloatOps A A where
  conv := fun v => v
  weight := o.weight
  zero := o.zero
  mul := o.mul
  mla := fun acc a b => if fused then o.fma a b acc else o.add acc (o.mul a b)
  fin := fun v => v

/-- One lane of `preferV` below. -/
def VecOps.mulAdd {A : Type} (o : VecOps A) (fma : Bool) (acc a b : A) : A :=
  if fma then o.fma a b acc else o.add (o.mul a b) acc

/-- binary32 arithmetic on finite values. -/
def ratOps : VecOps ℚ where
  weight := fun w => w
  zero := 0
  mul := fun a b => F32.rnd (a * b)
  add := fun a b => F32.rnd (a + b)
  fma := fun a b c => F32.rnd (a * b + c)

variable {A : Type}

/-- `_mm_set1_ps`, `_mm_load1_ps`. -/
def set1v (v : A) : List A := List.replicate 4 v
/-- `_mm_loadu_ps(ptr)`. -/
def loadps (src : List A) (off : ℕ) : Option (List A) := slice? src off (off + 4)
/-- `_mm_prefer_fma_ps::<FMA>(a, b, c)`, `src/sse/utils.rs:36-48`, and each half of `_mm256_fma_ps`,
`src/avx2/utils.rs:35-47`: `b * c + a`. -/
def preferV (o : VecOps A) (fma : Bool) (a b c : List A) : List A :=
  if fma then List.zipWith (fun bc z => o.fma bc.1 bc.2 z) (List.zip b c) a
  else List.zipWith (fun x z => o.add x z) (List.zipWith (fun x y => o.mul x y) b c) a
/-- `_mm_shuffle_ps` with four equal indices `i`, `src/sse/routines.rs:30-43`. -/
def splat (o : VecOps A) (i : ℕ) (v : List A) : List A := set1v (v.getD i o.zero)
/-- `n` weights loaded at `j`. -/
def loadW (o : VecOps A) (w : List ℚ) (j n : ℕ) : Option (List A) :=
  (slice? w j (j + n)).map fun l => l.map o.weight

/-! ### vertical -/

/-- One row for `R` registers of four samples; see `vBlockF`. -/
def vStepF (o : VecOps A) (fma : Bool) (R : ℕ) (b : Bounds) (src : List A) (stride : ℕ) (weight : List ℚ)
    (sx j : ℕ) (st : List (List A)) : Option (List (List A)) := do
  let w ← weight[j]?
  ((List.range R).zip st).mapM fun rs => do
    let row ← loadps src (stride * (b.start + j) + sx + 4 * rs.1)
    some (preferV o fma rs.2 row (set1v (o.weight w)))

/-- `4 R` samples: `convolve_vertical_part_sse_{24,16,8,4}_f32` (`R = 6, 4, 2, 1`,
`src/sse/vertical_f32.rs:36-186`), `convolve_vertical_part_avx_{32,16,8}_f32` (`R = 8, 4, 2`,
`src/avx2/vertical_f32.rs:37-136`). -/
def vBlockF (o : VecOps A) (fma : Bool) (R : ℕ) (b : Bounds) (src : List A) (stride : ℕ) (weight : List ℚ)
    (sx : ℕ) (dst : List A) : Option (List A) := do
  let st ← forRange 0 b.size (vStepF o fma R b src stride weight sx) (List.replicate R (set1v o.zero))
  writeAt? dst sx st.flatten

/-- One sample. SSE (`avx = false`): `_mm_load_ss` of sample and weight, upper lanes zero
(`convolve_vertical_part_sse_f32`, `src/sse/vertical_f32.rs:189-216`); AVX2: both broadcast
(`convolve_vertical_part_avx_f32`, `src/avx2/vertical_f32.rs:138-168`). Lane 0 is stored. -/
def vTailF (o : VecOps A) (fma avx : Bool) (b : Bounds) (src : List A) (stride : ℕ) (weight : List ℚ)
    (sx : ℕ) (dst : List A) : Option (List A) := do
  let st ← forRange 0 b.size (fun j (st : List A) => do
    let w ← weight[j]?
    let v ← src[stride * (b.start + j) + sx]?
    if avx then some (preferV o fma st (set1v v) (set1v (o.weight w)))
    else some (preferV o fma st [v, o.zero, o.zero, o.zero] [o.weight w, o.zero, o.zero, o.zero]))
    (set1v o.zero)
  writeAt? dst sx (st.take 1)

/-- `convolve_vertical_rgb_sse_row_f32_impl`, `src/sse/vertical_f32.rs:266-345`. -/
def sseColumnF (o : VecOps A) (fma : Bool) (b : Bounds) (src dst : List A) (stride : ℕ) (weight : List ℚ) :
    Option (List A) := do
  let total := dst.length
  let (cx, d) ← whileBlocks 24 24 total (vBlockF o fma 6 b src stride weight) total 0 dst
  let (cx, d) ← whileBlocks 16 16 total (vBlockF o fma 4 b src stride weight) total cx d
  let (cx, d) ← whileBlocks 8 8 total (vBlockF o fma 2 b src stride weight) total cx d
  let (cx, d) ← whileBlocks 4 4 total (vBlockF o fma 1 b src stride weight) total cx d
  let (_, d) ← whileBlocks 0 1 total (vTailF o fma false b src stride weight) total cx d
  some d

/-- `convolve_vertical_avx_row_f32_impl`, `src/avx2/vertical_f32.rs:215-280`. -/
def avxColumnF (o : VecOps A) (fma : Bool) (b : Bounds) (src dst : List A) (stride : ℕ) (weight : List ℚ) :
    Option (List A) := do
  let total := dst.length
  let (cx, d) ← whileBlocks 32 32 total (vBlockF o fma 8 b src stride weight) total 0 dst
  let (cx, d) ← whileBlocks 16 16 total (vBlockF o fma 4 b src stride weight) total cx d
  let (cx, d) ← whileBlocks 8 8 total (vBlockF o fma 2 b src stride weight) total cx d
  let (_, d) ← whileBlocks 0 1 total (vTailF o fma true b src stride weight) total cx d
  some d

/-! ### one channel -/

/-- `_mm_hsum_ps`, `src/sse/utils.rs:145-151`: `movehdup`, `add`, `movehl`, `add_ss`, lane 0. -/
def hsumV (o : VecOps A) (v : List A) : A :=
  let at' := fun (l : List A) (i : ℕ) => l.getD i o.zero
  let shuf := [at' v 1, at' v 1, at' v 3, at' v 3]
  let sums := List.zipWith (fun x y => o.add x y) v shuf
  let shuf := [at' sums 2, at' sums 3, at' shuf 2, at' shuf 3]
  o.add (at' sums 0) (at' shuf 0)

/-- `R` registers of four pixels in order: `conv_horiz_plane_{16,8,4}_f32` (`R = 4, 2, 1`),
`src/sse/plane_f32.rs:37-76`, with their weights `:177-219,343-411`. -/
def planePxR (o : VecOps A) (fma : Bool) (R : ℕ) (src : List A) (w : List ℚ) (b : Bounds) (jx off : ℕ)
    (store : List A) : Option (List A) :=
  forRange 0 R (fun t st => do
    let ws ← loadW o w (jx + 4 * t) 4
    let px ← loadps src (off + (b.start + jx) + 4 * t)
    some (preferV o fma st px ws)) store

/-- Two pixels in lanes 0 and 1: `conv_horiz_plane_2_f32`, `src/sse/plane_f32.rs:78-91,223,415`. -/
def planePx2 (o : VecOps A) (fma : Bool) (src : List A) (w : List ℚ) (b : Bounds) (jx off : ℕ)
    (store : List A) : Option (List A) := do
  let ws ← loadW o w jx 2
  let px ← slice? src (off + (b.start + jx)) (off + (b.start + jx) + 2)
  some (preferV o fma store (px ++ [o.zero, o.zero]) (ws ++ [o.zero, o.zero]))

/-- One pixel in lane 0, the weight in every lane: `conv_horiz_plane_1_f32`,
`src/sse/plane_f32.rs:93-99,231,430`. -/
def planePx1 (o : VecOps A) (fma : Bool) (src : List A) (w : List ℚ) (b : Bounds) (jx off : ℕ)
    (store : List A) : Option (List A) := do
  let weight ← w[jx]?
  let px ← src[off + (b.start + jx)]?
  some (preferV o fma store [px, o.zero, o.zero, o.zero] (set1v (o.weight weight)))

/-- `convolve_horizontal_plane_sse_row_one_impl` (`step16 = 8`: the loop over 16 pixels advances by 8, as in
the code, `src/sse/plane_f32.rs:165-239`) and `convolve_horizontal_plane_sse_rows_4_impl` (`step16 = 16`,
`:320-460`). -/
def planeSseF (o : VecOps A) (fma : Bool) (step16 : ℕ) (src : List A) (offs : List ℕ) (w : List ℚ)
    (b : Bounds) : Option (List (List A)) := do
  let st := offs.map fun _ => set1v o.zero
  let (jx, st) ← rowsLoop 16 step16 b.size offs (planePxR o fma 4 src w b) 0 st
  let (jx, st) ← rowsLoop 8 8 b.size offs (planePxR o fma 2 src w b) jx st
  let (jx, st) ← rowsLoop 4 4 b.size offs (planePxR o fma 1 src w b) jx st
  let (jx, st) ← rowsLoop 2 2 b.size offs (planePx2 o fma src w b) jx st
  let (_, st) ← rowsLoop 0 1 b.size offs (planePx1 o fma src w b) jx st
  some (st.map fun s => [hsumV o s])

/-! ### three channels -/

/-- Three samples and a zero lane: `_mm_setr_ps(p[0], p[1], p[2], 0.)`. -/
def loadRgb (o : VecOps A) (src : List A) (off : ℕ) : Option (List A) :=
  (slice? src off (off + 3)).map fun l => l ++ [o.zero]

/-- `convolve_horizontal_parts_4_rgb_f32`, `src/sse/rgb_f32.rs:37-64`. -/
def rgbPx4 (o : VecOps A) (fma : Bool) (src : List A) (w : List ℚ) (b : Bounds) (jx off : ℕ)
    (store : List A) : Option (List A) := do
  let ws ← loadW o w jx 4
  let p0 ← loadps src (off + (b.start + jx) * 3)
  let p1 ← loadps src (off + (b.start + jx) * 3 + 3)
  let p2 ← loadps src (off + (b.start + jx) * 3 + 6)
  let p3 ← loadRgb o src (off + (b.start + jx) * 3 + 9)
  let acc := preferV o fma store p0 (splat o 0 ws)
  let acc := preferV o fma acc p1 (splat o 1 ws)
  let acc := preferV o fma acc p2 (splat o 2 ws)
  some (preferV o fma acc p3 (splat o 3 ws))

/-- `convolve_horizontal_parts_2_rgb_f32`, `src/sse/rgb_f32.rs:66-90`. -/
def rgbPx2 (o : VecOps A) (fma : Bool) (src : List A) (w : List ℚ) (b : Bounds) (jx off : ℕ)
    (store : List A) : Option (List A) := do
  let ws ← loadW o w jx 2
  let p0 ← loadps src (off + (b.start + jx) * 3)
  let p1 ← loadRgb o src (off + (b.start + jx) * 3 + 3)
  let acc := preferV o fma store p0 (splat o 0 ws)
  some (preferV o fma acc p1 (splat o 1 ws))

/-- `convolve_horizontal_parts_one_rgb_f32`, `src/sse/rgb_f32.rs:92-108`. -/
def rgbPx1 (o : VecOps A) (fma : Bool) (src : List A) (w : List ℚ) (b : Bounds) (jx off : ℕ)
    (store : List A) : Option (List A) := do
  let weight ← w[jx]?
  let p0 ← loadRgb o src (off + (b.start + jx) * 3)
  some (preferV o fma store p0 (set1v (o.weight weight)))

/-- `convolve_horizontal_rgb_sse_row_one_f32_impl` and `convolve_horizontal_rgb_sse_rows_4_f32_impl`,
`src/sse/rgb_f32.rs:174-243,324-484`: lanes 0, 1 and 2 are stored. -/
def rgbSseF (o : VecOps A) (fma : Bool) (src : List A) (offs : List ℕ) (w : List ℚ) (b : Bounds) :
    Option (List (List A)) := do
  let st := offs.map fun _ => set1v o.zero
  let (jx, st) ← rowsLoop 4 4 b.size offs (rgbPx4 o fma src w b) 0 st
  let (jx, st) ← rowsLoop 2 2 b.size offs (rgbPx2 o fma src w b) jx st
  let (_, st) ← rowsLoop 0 1 b.size offs (rgbPx1 o fma src w b) jx st
  some (st.map fun s => s.take 3)

/-! ### four channels, SSE4.1 -/

/-- `convolve_horizontal_parts_4_rgba_f32`, `src/sse/rgba_f32.rs:184-206`. -/
def rgbaPx4F (o : VecOps A) (fma : Bool) (src : List A) (w : List ℚ) (b : Bounds) (jx off : ℕ)
    (store : List A) : Option (List A) := do
  let ws ← loadW o w jx 4
  let p0 ← loadps src (off + (b.start + jx) * 4)
  let p1 ← loadps src (off + (b.start + jx) * 4 + 4)
  let p2 ← loadps src (off + (b.start + jx) * 4 + 8)
  let p3 ← loadps src (off + (b.start + jx) * 4 + 12)
  let acc := preferV o fma store p0 (splat o 0 ws)
  let acc := preferV o fma acc p1 (splat o 1 ws)
  let acc := preferV o fma acc p2 (splat o 2 ws)
  some (preferV o fma acc p3 (splat o 3 ws))

/-- `convolve_horizontal_parts_2_rgba_f32`, `src/sse/rgba_f32.rs:208-224`. -/
def rgbaPx2F (o : VecOps A) (fma : Bool) (src : List A) (w : List ℚ) (b : Bounds) (jx off : ℕ)
    (store : List A) : Option (List A) := do
  let ws ← loadW o w jx 2
  let p0 ← loadps src (off + (b.start + jx) * 4)
  let p1 ← loadps src (off + (b.start + jx) * 4 + 4)
  let acc := preferV o fma store p0 (splat o 0 ws)
  some (preferV o fma acc p1 (splat o 1 ws))

/-- `convolve_horizontal_parts_one_rgba_f32`, `src/sse/rgba_f32.rs:37-48`. -/
def rgbaPx1F (o : VecOps A) (fma : Bool) (src : List A) (w : List ℚ) (b : Bounds) (jx off : ℕ)
    (store : List A) : Option (List A) := do
  let weight ← w[jx]?
  let p0 ← loadps src (off + (b.start + jx) * 4)
  some (preferV o fma store p0 (set1v (o.weight weight)))

/-- `convolve_horizontal_rgba_sse_row_one_f32_impl` and `convolve_horizontal_rgba_sse_rows_4_f32_impl`,
`src/sse/rgba_f32.rs:115-182,305-454`. -/
def rgbaSseF (o : VecOps A) (fma : Bool) (src : List A) (offs : List ℕ) (w : List ℚ) (b : Bounds) :
    Option (List (List A)) := do
  let st := offs.map fun _ => set1v o.zero
  let (jx, st) ← rowsLoop 4 4 b.size offs (rgbaPx4F o fma src w b) 0 st
  let (jx, st) ← rowsLoop 2 2 b.size offs (rgbaPx2F o fma src w b) jx st
  let (_, st) ← rowsLoop 0 1 b.size offs (rgbaPx1F o fma src w b) jx st
  some st

/-! ### four channels, AVX2 -/

/-- `_mm256_fma_ps::<FMA>(a, b, c)`, `src/avx2/utils.rs:35-47`. -/
def preferV2 (o : VecOps A) (fma : Bool) (a b c : List A × List A) : List A × List A :=
  (preferV o fma a.1 b.1 c.1, preferV o fma a.2 b.2 c.2)
/-- `_mm256_loadu_ps(ptr)`. -/
def loadps2 (src : List A) (off : ℕ) : Option (List A × List A) := do
  let lo ← loadps src off
  let hi ← loadps src (off + 4)
  some (lo, hi)

/-- `2 R` pixels: `convolve_horizontal_parts_{8,4,2}_rgba_f32` (`R = 4, 2, 1`, `src/avx2/rgba_f32.rs:52-106`)
with the weight pairs of `load_8_weights_group_4_avx!`, `load_4_weights_group_2_avx!`
(`src/avx2/routines.rs:32-80`) and `avx_combine_ps(set1(w[0]), set1(w[1]))`: register `t` holds weights
`2 t` (low half) and `2 t + 1` (high half). The code loads the weights four at a time; the model two at a
time from the same places. -/
def rgbaAvxPxR (o : VecOps A) (fma : Bool) (R : ℕ) (src : List A) (w : List ℚ) (b : Bounds) (jx off : ℕ)
    (store : List A × List A) : Option (List A × List A) :=
  forRange 0 R (fun t st => do
    let ws ← loadW o w (jx + 2 * t) 2
    let px ← loadps2 src (off + (b.start + jx) * 4 + 8 * t)
    some (preferV2 o fma st px (splat o 0 ws, splat o 1 ws))) store

/-- `convolve_horizontal_parts_one_rgba_f32`, `src/avx2/rgba_f32.rs:36-50`: the pixel in the low half, zeros in
the high half, the weight in every lane. -/
def rgbaAvxPx1F (o : VecOps A) (fma : Bool) (src : List A) (w : List ℚ) (b : Bounds) (jx off : ℕ)
    (store : List A × List A) : Option (List A × List A) := do
  let weight ← w[jx]?
  let p0 ← loadps src (off + (b.start + jx) * 4)
  some (preferV2 o fma store (p0, set1v o.zero) (set1v (o.weight weight), set1v (o.weight weight)))

/-- `convolve_horizontal_rgba_avx_rows_4_f32_impl` and `convolve_horizontal_rgba_avx_row_one_f32_impl`,
`src/avx2/rgba_f32.rs:191-388,453-531`: at the end the two halves are added. -/
def rgbaAvxF (o : VecOps A) (fma : Bool) (src : List A) (offs : List ℕ) (w : List ℚ) (b : Bounds) :
    Option (List (List A)) := do
  let st := offs.map fun _ => (set1v o.zero, set1v o.zero)
  let (jx, st) ← rowsLoop 8 8 b.size offs (rgbaAvxPxR o fma 4 src w b) 0 st
  let (jx, st) ← rowsLoop 4 4 b.size offs (rgbaAvxPxR o fma 2 src w b) jx st
  let (jx, st) ← rowsLoop 2 2 b.size offs (rgbaAvxPxR o fma 1 src w b) jx st
  let (_, st) ← rowsLoop 0 1 b.size offs (rgbaAvxPx1F o fma src w b) jx st
  some (st.map fun s => List.zipWith (fun x y => o.add x y) s.1 s.2)

/-! ### selection -/

/-- `convolve_vertical` of all f32 images, `src/plane_f32.rs:100-131` and the same lines of `src/cbcr_f32.rs`,
`src/rgb_f32.rs`, `src/rgba_f32.rs`: SSE4.1 never uses FMA, AVX2 does when the CPU has it. -/
def columnF32X86 (cpu : Cpu) (fma fused : Bool) (o : VecOps A) (b : Bounds) (src dst : List A) (stride : ℕ)
    (weight : List ℚ) : Option (List A) :=
  if cpu.avx2 then avxColumnF o fma b src dst stride weight
  else if cpu.sse41 then sseColumnF o false b src dst stride weight
  else columnFloat (o.scalar fused) b src dst stride weight

/-- `_dispatcher_4_rows` of `convolve_horizontal`: `src/plane_f32.rs:64-87`, `src/cbcr_f32.rs` (scalar only),
`src/rgb_f32.rs`, `src/rgba_f32.rs`. -/
def rows4F32X86 (cpu : Cpu) (fma fused : Bool) (o : VecOps A) (N : ℕ) (src : List A) (srcStride : ℕ)
    (dst : List A) (dstStride : ℕ) (fw : FilterWeights ℚ) : Option (List A) :=
  if N = 1 ∧ cpu.sse41 then simdRows4 N (planeSseF o fma 16 src) srcStride dst dstStride fw
  else if N = 3 ∧ cpu.sse41 then simdRows4 N (rgbSseF o fma src) srcStride dst dstStride fw
  else if N = 4 ∧ cpu.avx2 then simdRows4 N (rgbaAvxF o fma src) srcStride dst dstStride fw
  else if N = 4 ∧ cpu.sse41 then simdRows4 N (rgbaSseF o false src) srcStride dst dstStride fw
  else rows4Float (o.scalar fused) N src srcStride dst dstStride fw

/-- `_dispatcher_row` of `convolve_horizontal`. `convolve_horizontal_rgba_avx_row_one_f32_fma` calls the
implementation without FMA (`src/avx2/rgba_f32.rs:435-450`). -/
def rowF32X86 (cpu : Cpu) (fma fused : Bool) (o : VecOps A) (N : ℕ) (src dst : List A) (fw : FilterWeights ℚ) :
    Option (List A) :=
  if N = 1 ∧ cpu.sse41 then simdRow N (planeSseF o fma 8 src) dst fw
  else if N = 3 ∧ cpu.sse41 then simdRow N (rgbSseF o fma src) dst fw
  else if N = 4 ∧ cpu.avx2 then simdRow N (rgbaAvxF o false src) dst fw
  else if N = 4 ∧ cpu.sse41 then simdRow N (rgbaSseF o false src) dst fw
  else rowFloat (o.scalar fused) N src dst fw

/-- f32 images on x86: `convolve_vertical_dispatch_f32`, `convolve_horizontal_dispatch_f32`
(`src/dispatch_group_f32.rs:37-218`) with the handlers above. `fma` is `is_x86_feature_detected!("fma")`. -/
def formatF32X86 (cpu : Cpu) (fma fused : Bool) (o : VecOps A) (N : ℕ) : Format A where
  default := o.zero
  shouldHaveBitDepth := false
  vertical := fun src dst fw =>
    verticalDispatch N src dst fw.bounds fw.alignedSize fw.weights
      (fun b s d ss w => columnF32X86 cpu fma fused o b s d ss w)
  horizontal := fun src dst fw =>
    horizontalDispatch N src dst
      (some fun s ss d ds => rows4F32X86 cpu fma fused o N s ss d ds fw)
      (fun s d => rowF32X86 cpu fma fused o N s d fw)

end PicScale
