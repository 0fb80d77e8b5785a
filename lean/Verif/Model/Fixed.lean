import Verif.Model.Pass
import Mathlib.Algebra.Order.Ring.Int

/-!
Model of the scalar fixed point convolution: `src/fixed_point_horizontal.rs`,
`src/fixed_point_vertical.rs`, `src/saturate_narrow.rs`.

Samples (`u8`/`u16`) are naturals, weights (`i16`) and accumulators (`i32`) are integers;
accumulator arithmetic wraps modulo `2^32` (release build semantics; a debug build panics where
this wraps).
-/

namespace PicScale

/-- `PRECISION`, `src/support.rs:30`. -/
def PRECISION : ℕ := 15
/-- `ROUNDING_CONST = 1 << (PRECISION - 1)`, `src/support.rs:31`. -/
def ROUNDING_CONST : ℤ := 16384

/-- Wrap to `i32`. -/
def i32 (v : ℤ) : ℤ := Int.bmod v 4294967296

/-- `ColorGroup * J`, `src/color_group.rs:73-93`, at `J = i32`. -/
def cgMul (g : List ℤ) (w : ℤ) : List ℤ := g.map fun v => i32 (v * w)
/-- `ColorGroup + ColorGroup` and `+=`, `src/color_group.rs:232-257,359-381`, at `J = i32`. -/
def cgAdd (a b : List ℤ) : List ℤ := List.zipWith (fun x y => i32 (x + y)) a b

/-- The two sample types of the fixed point path. -/
inductive SampleTy where
  | u8
  | u16
  deriving DecidableEq, Repr

/-- Largest sample: `saturate_narrow` clamps `u8` to 255 and `u16` to `(1 << bit_depth) - 1`,
`src/saturate_narrow.rs:36-66`. -/
def SampleTy.hi (t : SampleTy) (bitDepth : ℕ) : ℕ :=
  match t with
  | .u8 => 255
  | .u16 => 2 ^ bitDepth - 1

/-- `i32::saturate_narrow`, `src/saturate_narrow.rs:36-41,52-57`: `(v >> 15).max(0).min(hi)`. -/
def saturateNarrow (hi : ℕ) (v : ℤ) : ℕ := (min (max (v >>> 15) 0) (hi : ℤ)).toNat

/-- One output pixel of one row: the body of the loop in `convolve_row_handler_fixed_point`,
`src/fixed_point_horizontal.rs:69-130`, reading the source from element `base + start*N` on
(`base = 0` in the single row version, `r * src_stride` for row `r` of the 4-row version,
`:182-294`, where the cases 2, 3, 4, 6 are textual copies of the single row code). -/
def rowPixelSums (N : ℕ) (src : List ℕ) (base : ℕ) (weights : List ℤ) (b : Bounds) :
    Option (List ℤ) :=
  let sums := List.replicate N ROUNDING_CONST
  let px := b.start * N + base
  if b.size = 2 then do
    let s ← slice? src px (px + 2 * N)
    let ws ← slice? weights 0 2
    let w0 ← ws[0]?
    let w1 ← ws[1]?
    let p0 ← loadGroup Int.ofNat N s 0
    let p1 ← loadGroup Int.ofNat N s N
    some (cgAdd sums (cgAdd (cgMul p0 w0) (cgMul p1 w1)))
  else if b.size = 3 then do
    let s ← slice? src px (px + 3 * N)
    let ws ← slice? weights 0 3
    let w0 ← ws[0]?
    let w1 ← ws[1]?
    let w2 ← ws[2]?
    let p0 ← loadGroup Int.ofNat N s 0
    let p1 ← loadGroup Int.ofNat N s N
    let p2 ← loadGroup Int.ofNat N s (N * 2)
    some (cgAdd sums (cgAdd (cgAdd (cgMul p0 w0) (cgMul p1 w1)) (cgMul p2 w2)))
  else if b.size = 4 then do
    let s ← slice? src px (px + 4 * N)
    let ws ← slice? weights 0 4
    let w0 ← ws[0]?
    let w1 ← ws[1]?
    let w2 ← ws[2]?
    let w3 ← ws[3]?
    let p0 ← loadGroup Int.ofNat N s 0
    let p1 ← loadGroup Int.ofNat N s N
    let p2 ← loadGroup Int.ofNat N s (N * 2)
    let p3 ← loadGroup Int.ofNat N s (N * 3)
    some (cgAdd sums (cgAdd (cgAdd (cgAdd (cgMul p0 w0) (cgMul p1 w1)) (cgMul p2 w2)) (cgMul p3 w3)))
  else if b.size = 6 then do
    let s ← slice? src px (px + 6 * N)
    let ws ← slice? weights 0 6
    let w0 ← ws[0]?
    let w1 ← ws[1]?
    let w2 ← ws[2]?
    let w3 ← ws[3]?
    let w4 ← ws[4]?
    let w5 ← ws[5]?
    let p0 ← loadGroup Int.ofNat N s 0
    let p1 ← loadGroup Int.ofNat N s N
    let p2 ← loadGroup Int.ofNat N s (N * 2)
    let p3 ← loadGroup Int.ofNat N s (N * 3)
    let p4 ← loadGroup Int.ofNat N s (N * 4)
    let p5 ← loadGroup Int.ofNat N s (N * 5)
    some (cgAdd sums (cgAdd (cgAdd (cgAdd (cgAdd (cgAdd (cgMul p0 w0) (cgMul p1 w1)) (cgMul p2 w2))
      (cgMul p3 w3)) (cgMul p4 w4)) (cgMul p5 w5)))
  else
    groupFold Int.ofNat (fun acc p w => cgAdd acc (cgMul p w)) sums N src px weights b.size

/-- `convolve_row_handler_fixed_point`, `src/fixed_point_horizontal.rs:39-136`. -/
def rowFixed (N hi : ℕ) (src dst : List ℕ) (fw : FilterWeights ℤ) : Option (List ℕ) :=
  rowPass N (rowPixelSums N src 0) (saturateNarrow hi) dst fw

/-- Loop body of `convolve_row_handler_fixed_point_4`, `src/fixed_point_horizontal.rs:182-333`. -/
def rows4PixelSums (N : ℕ) (src : List ℕ) (srcStride : ℕ) (weights : List ℤ) (b : Bounds) :
    Option (List ℤ × List ℤ × List ℤ × List ℤ) :=
  if b.size = 2 ∨ b.size = 3 ∨ b.size = 4 ∨ b.size = 6 then do
    let s0 ← rowPixelSums N src 0 weights b
    let s1 ← rowPixelSums N src srcStride weights b
    let s2 ← rowPixelSums N src (srcStride * 2) weights b
    let s3 ← rowPixelSums N src (srcStride * 3) weights b
    some (s0, s1, s2, s3)
  else
    groupFold4 Int.ofNat (fun acc p w => cgAdd acc (cgMul p w)) (List.replicate N ROUNDING_CONST) N
      src srcStride (b.start * N) weights b.size

/-- `convolve_row_handler_fixed_point_4`, `src/fixed_point_horizontal.rs:139-336`. -/
def rows4Fixed (N hi : ℕ) (src : List ℕ) (srcStride : ℕ) (dst : List ℕ) (dstStride : ℕ)
    (fw : FilterWeights ℤ) : Option (List ℕ) :=
  rows4Pass N (rows4PixelSums N src srcStride) (saturateNarrow hi) dst dstStride fw

/-- One accumulation step of the vertical handlers: `*dst += src.as_() * weight` over the `R`
buffers of `B` accumulators (`src/fixed_point_vertical.rs:66-68,122-128,195-209` and the loops at
`:77-79,138-143,221-232`). `R` is 1, 2 or 4 for `direct_buffer`, `_double`, `_four`. -/
def columnStep (R B : ℕ) (src : List ℕ) (offset : ℕ) (weight : ℤ) (stores : List (List ℤ)) :
    Option (List (List ℤ)) :=
  ((List.range R).zip stores).mapM fun rs => do
    let s ← slice? src (offset + B * rs.1) (offset + B * (rs.1 + 1))
    some (List.zipWith (fun (a : ℤ) (p : ℕ) => i32 (a + i32 ((p : ℤ) * weight))) rs.2 s)

/-- `convolve_column_handler_fixed_point_direct_buffer{,_double,_four}`,
`src/fixed_point_vertical.rs:38-86,92-155,161-254`: the three differ only in the number `R` of
buffers. -/
def columnBlock (R B hi : ℕ) (src : List ℕ) (srcStride : ℕ) (filter : List ℤ) (b : Bounds)
    (x : ℕ) (dst : List ℕ) : Option (List ℕ) :=
  match filter with
  | [] => some dst
  | w0 :: _ => do
    let stores := List.replicate R (List.replicate B 0)
    let stores ← columnStep R B src (srcStride * b.start + x) w0 stores
    let stores ← (((filter.take b.size).drop 1).zipIdx).foldlM
      (fun st wj => columnStep R B src (srcStride * (b.start + wj.2 + 1) + x) wj.1 st) stores
    ((List.range R).zip stores).foldlM
      (fun d rs => writeAt? d (x + B * rs.1) (rs.2.map (saturateNarrow hi))) dst

/-- `column_handler_fixed_point`, `src/fixed_point_vertical.rs:259-317`. -/
def columnFixed (hi : ℕ) (b : Bounds) (src dst : List ℕ) (srcStride : ℕ) (weight : List ℤ) :
    Option (List ℕ) := do
  let total := dst.length
  let (cx, d) ← whileBlocks 64 64 total (columnBlock 4 16 hi src srcStride weight b) total 0 dst
  let (cx, d) ← whileBlocks 32 32 total (columnBlock 2 16 hi src srcStride weight b) total cx d
  let (cx, d) ← whileBlocks 16 16 total (columnBlock 1 16 hi src srcStride weight b) total cx d
  let (cx, d) ← whileBlocks 8 8 total (columnBlock 1 8 hi src srcStride weight b) total cx d
  let (_, d) ← whileBlocks 0 1 total (columnBlock 1 1 hi src srcStride weight b) total cx d
  some d

end PicScale
