import Verif.Model.Dispatch
import Verif.Model.F32

/-!
Model of the scalar floating point convolution: `src/floating_point_horizontal.rs`,
`src/floating_point_vertical.rs`, `src/mixed_storage.rs`, `src/mlaf.rs`, `src/convolve_naive_f32.rs`.

The accumulator type `J` (always `f32` in the crate) is an arbitrary type `A` with arbitrary
operations, so everything proved for all `FloatOps` holds for IEEE arithmetic including NaN,
infinities and signed zeros, and for the fused as well as the unfused build of `mlaf`.
-/

namespace PicScale

variable {S A : Type}

/-- The operations the floating point handlers use. -/
structure FloatOps (S A : Type) where
  /-- `sample.as_()` -/
  conv : S → A
  /-- `k_weight.as_()`; finite `f32` weights are rationals -/
  weight : ℚ → A
  /-- `0.as_()` -/
  zero : A
  /-- `a * b` -/
  mul : A → A → A
  /-- `mlaf(acc, a, b)`, `src/mlaf.rs:31-63` -/
  mla : A → A → A → A
  /-- `to_mixed(bit_depth)`, `src/mixed_storage.rs` -/
  fin : A → S

/-- `ColorGroup * J`, `src/color_group.rs:73-93`. -/
def FloatOps.gMul (o : FloatOps S A) (g : List A) (w : ℚ) : List A := g.map fun v => o.mul v (o.weight w)

/-- `ColorGroup::mul_add(self, a, b)`, `src/color_group.rs:327-356`. -/
def FloatOps.gMla (o : FloatOps S A) (acc g : List A) (w : ℚ) : List A :=
  List.zipWith (fun a v => o.mla a v (o.weight w)) acc g

/-- One output pixel of one row: loop body of `convolve_row_handler_floating_point`,
`src/floating_point_horizontal.rs:72-169`, reading from element `base + start * N` on (`base = 0` in
the single row version, `r * src_stride` for row `r` of the 4-row version, `:222-460`, where the cases
2, 3, 4, 6 are textual copies of the single row code). -/
def rowPixelSumsF (o : FloatOps S A) (N : ℕ) (src : List S) (base : ℕ) (weights : List ℚ) (b : Bounds) :
    Option (List A) :=
  let sums := List.replicate N o.zero
  let px := b.start * N + base
  if b.size = 2 then do
    let s ← slice? src px (px + 2 * N)
    let ws ← slice? weights 0 2
    let w0 ← ws[0]?
    let w1 ← ws[1]?
    let p0 ← loadGroup o.conv N s 0
    let p1 ← loadGroup o.conv N s N
    some (o.gMla (o.gMul p0 w0) p1 w1)
  else if b.size = 3 then do
    let s ← slice? src px (px + 3 * N)
    let ws ← slice? weights 0 3
    let w0 ← ws[0]?
    let w1 ← ws[1]?
    let w2 ← ws[2]?
    let p0 ← loadGroup o.conv N s 0
    let p1 ← loadGroup o.conv N s N
    let p2 ← loadGroup o.conv N s (N * 2)
    some (o.gMla (o.gMla (o.gMul p0 w0) p1 w1) p2 w2)
  else if b.size = 4 then do
    let s ← slice? src px (px + 4 * N)
    let ws ← slice? weights 0 4
    let w0 ← ws[0]?
    let w1 ← ws[1]?
    let w2 ← ws[2]?
    let w3 ← ws[3]?
    let p0 ← loadGroup o.conv N s 0
    let p1 ← loadGroup o.conv N s N
    let p2 ← loadGroup o.conv N s (N * 2)
    let p3 ← loadGroup o.conv N s (N * 3)
    some (o.gMla (o.gMla (o.gMla (o.gMul p0 w0) p1 w1) p2 w2) p3 w3)
  else if b.size = 6 then do
    let s ← slice? src px (px + 6 * N)
    let ws ← slice? weights 0 6
    let w0 ← ws[0]?
    let w1 ← ws[1]?
    let w2 ← ws[2]?
    let w3 ← ws[3]?
    let w4 ← ws[4]?
    let w5 ← ws[5]?
    let p0 ← loadGroup o.conv N s 0
    let p1 ← loadGroup o.conv N s N
    let p2 ← loadGroup o.conv N s (N * 2)
    let p3 ← loadGroup o.conv N s (N * 3)
    let p4 ← loadGroup o.conv N s (N * 4)
    let p5 ← loadGroup o.conv N s (N * 5)
    some (o.gMla (o.gMla (o.gMla (o.gMla (o.gMla (o.gMul p0 w0) p1 w1) p2 w2) p3 w3) p4 w4) p5 w5)
  else
    groupFold o.conv o.gMla sums N src px weights b.size

/-- `convolve_row_handler_floating_point`, `src/floating_point_horizontal.rs:41-172`;
`convolve_horizontal_rgb_native_row`, `src/convolve_naive_f32.rs`, only forwards to it. -/
def rowFloat (o : FloatOps S A) (N : ℕ) (src dst : List S) (fw : FilterWeights ℚ) : Option (List S) :=
  rowPass N (rowPixelSumsF o N src 0) o.fin dst fw

/-- Loop body of `convolve_row_handler_floating_point_4`,
`src/floating_point_horizontal.rs:222-492`. -/
def rows4PixelSumsF (o : FloatOps S A) (N : ℕ) (src : List S) (srcStride : ℕ) (weights : List ℚ)
    (b : Bounds) : Option (List A × List A × List A × List A) :=
  if b.size = 2 ∨ b.size = 3 ∨ b.size = 4 ∨ b.size = 6 then do
    let s0 ← rowPixelSumsF o N src 0 weights b
    let s1 ← rowPixelSumsF o N src srcStride weights b
    let s2 ← rowPixelSumsF o N src (srcStride * 2) weights b
    let s3 ← rowPixelSumsF o N src (srcStride * 3) weights b
    some (s0, s1, s2, s3)
  else
    groupFold4 o.conv o.gMla (List.replicate N o.zero) N src srcStride (b.start * N) weights b.size

/-- `convolve_row_handler_floating_point_4`, `src/floating_point_horizontal.rs:180-499`. -/
def rows4Float (o : FloatOps S A) (N : ℕ) (src : List S) (srcStride : ℕ) (dst : List S) (dstStride : ℕ)
    (fw : FilterWeights ℚ) : Option (List S) :=
  rows4Pass N (rows4PixelSumsF o N src srcStride) o.fin dst dstStride fw

/-- Group `r` of the `R` colour groups of `N` samples at row position `x`: the sums of
`convolve_column_handler_floating_point_4` (`R = 4`, `src/floating_point_vertical.rs:64-335`; the four
groups are textual copies) and `convolve_column_handler_floating_point` (`R = 1`, `:395-513`). -/
def columnSumsF (o : FloatOps S A) (N R : ℕ) (src : List S) (srcStride : ℕ) (filter : List ℚ)
    (b : Bounds) (x r : ℕ) : Option (List A) :=
  let row := fun k => slice? src (srcStride * (b.start + k) + x) (srcStride * (b.start + k) + x + N * R)
  if b.size = 2 then do
    let ws ← slice? filter 0 2
    let w0 ← ws[0]?
    let w1 ← ws[1]?
    let s0 ← row 0
    let s1 ← row 1
    let p0 ← loadGroup o.conv N s0 (N * r)
    let p1 ← loadGroup o.conv N s1 (N * r)
    some (o.gMla (o.gMul p0 w0) p1 w1)
  else if b.size = 3 then do
    let ws ← slice? filter 0 3
    let w0 ← ws[0]?
    let w1 ← ws[1]?
    let w2 ← ws[2]?
    let s0 ← row 0
    let s1 ← row 1
    let s2 ← row 2
    let p0 ← loadGroup o.conv N s0 (N * r)
    let p1 ← loadGroup o.conv N s1 (N * r)
    let p2 ← loadGroup o.conv N s2 (N * r)
    some (o.gMla (o.gMla (o.gMul p0 w0) p1 w1) p2 w2)
  else if b.size = 4 then do
    let ws ← slice? filter 0 4
    let w0 ← ws[0]?
    let w1 ← ws[1]?
    let w2 ← ws[2]?
    let w3 ← ws[3]?
    let s0 ← row 0
    let s1 ← row 1
    let s2 ← row 2
    let s3 ← row 3
    let p0 ← loadGroup o.conv N s0 (N * r)
    let p1 ← loadGroup o.conv N s1 (N * r)
    let p2 ← loadGroup o.conv N s2 (N * r)
    let p3 ← loadGroup o.conv N s3 (N * r)
    some (o.gMla (o.gMla (o.gMla (o.gMul p0 w0) p1 w1) p2 w2) p3 w3)
  else if b.size = 6 then do
    let ws ← slice? filter 0 6
    let w0 ← ws[0]?
    let w1 ← ws[1]?
    let w2 ← ws[2]?
    let w3 ← ws[3]?
    let w4 ← ws[4]?
    let w5 ← ws[5]?
    let s0 ← row 0
    let s1 ← row 1
    let s2 ← row 2
    let s3 ← row 3
    let s4 ← row 4
    let s5 ← row 5
    let p0 ← loadGroup o.conv N s0 (N * r)
    let p1 ← loadGroup o.conv N s1 (N * r)
    let p2 ← loadGroup o.conv N s2 (N * r)
    let p3 ← loadGroup o.conv N s3 (N * r)
    let p4 ← loadGroup o.conv N s4 (N * r)
    let p5 ← loadGroup o.conv N s5 (N * r)
    some (o.gMla (o.gMla (o.gMla (o.gMla (o.gMla (o.gMul p0 w0) p1 w1) p2 w2) p3 w3) p4 w4) p5 w5)
  else
    ((filter.take b.size).zipIdx).foldlM (fun acc wj => do
      let s ← slice? src (srcStride * (b.start + wj.2) + x) (srcStride * (b.start + wj.2) + x + N * R)
      let p ← loadGroup o.conv N s (N * r)
      some (o.gMla acc p wj.1)) (List.replicate N o.zero)

/-- `convolve_column_handler_floating_point_4` (`R = 4`, `src/floating_point_vertical.rs:42-365`) and
`convolve_column_handler_floating_point` (`R = 1`, `:372-523`) on `N` channels: compute all sums, then
store group `r` at `x + N * r`. -/
def columnBlockF (o : FloatOps S A) (N R : ℕ) (src : List S) (srcStride : ℕ) (filter : List ℚ)
    (b : Bounds) (x : ℕ) (dst : List S) : Option (List S) := do
  let sums ← (List.range R).mapM (columnSumsF o N R src srcStride filter b x)
  ((List.range R).zip sums).foldlM (fun d rs => writeAt? d (x + N * rs.1) (rs.2.map o.fin)) dst

/-- `column_handler_floating_point`, `src/floating_point_vertical.rs:529-594`;
`convolve_vertical_rgb_native_row_f32`, `src/rgb_f32.rs:43-52`, only forwards to it. -/
def columnFloat (o : FloatOps S A) (b : Bounds) (src dst : List S) (srcStride : ℕ) (weight : List ℚ) :
    Option (List S) := do
  let total := dst.length
  let (cx, d) ← whileBlocks 16 16 total (columnBlockF o 4 4 src srcStride weight b) total 0 dst
  let (cx, d) ← whileBlocks 4 4 total (columnBlockF o 4 1 src srcStride weight b) total cx d
  let (_, d) ← whileBlocks 0 1 total (columnBlockF o 1 1 src srcStride weight b) total cx d
  some d

/-- Horizontal floating point pass: the `bit_depth > 12` arm of `convolve_horizontal_dispatch_u16`
(`src/dispatch_group_u16.rs:108-133`) and `convolve_horizontal_dispatch_f32`
(`src/dispatch_group_f32.rs:93-218`) with the native handlers. -/
def horizontalFloat (o : FloatOps S A) (N : ℕ) (src dst : Image S) (fw : FilterWeights ℚ) :
    Option (Image S) :=
  horizontalDispatch N src dst
    (some fun s ss d ds => rows4Float o N s ss d ds fw) (fun s d => rowFloat o N s d fw)

/-- Vertical floating point pass: the `bit_depth > 12` arm of `convolve_vertical_dispatch_u16`
(`src/dispatch_group_u16.rs:231-250`) and `convolve_vertical_dispatch_f32`
(`src/dispatch_group_f32.rs:37-91`) with the native handlers. -/
def verticalFloat (o : FloatOps S A) (N : ℕ) (src dst : Image S) (fw : FilterWeights ℚ) :
    Option (Image S) :=
  verticalDispatch N src dst fw.bounds fw.alignedSize fw.weights
    (fun b s d ss w => columnFloat o b s d ss w)

end PicScale
