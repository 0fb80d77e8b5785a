import Verif.Model.AlphaX86

/-!
Alpha handling of RGBA f32 images with vector instructions: `src/sse/alpha_f32.rs`, `src/avx2/alpha_f32.rs`.
-/

namespace PicScale

/-! ### lanes -/

/-- `_mm_loadu_ps(ptr.add(4 * k))` within a chunk. -/
def regFAt (l : List ℚ) (k : ℕ) : RegF := (List.range 4).map fun i => l.getD (4 * k + i) 0
/-- `_mm_unpacklo_ps`, `_mm_unpacklo_epi32` on the bits of floats. -/
def unpackloF (a b : RegF) : RegF := [a.getD 0 0, b.getD 0 0, a.getD 1 0, b.getD 1 0]
/-- `_mm_unpackhi_ps`, `_mm_unpackhi_epi32`. -/
def unpackhiF (a b : RegF) : RegF := [a.getD 2 0, b.getD 2 0, a.getD 3 0, b.getD 3 0]
/-- `_mm_unpacklo_epi64` on the bits of floats. -/
def unpacklo64F (a b : RegF) : RegF := [a.getD 0 0, a.getD 1 0, b.getD 0 0, b.getD 1 0]
/-- `_mm_unpackhi_epi64`. -/
def unpackhi64F (a b : RegF) : RegF := [a.getD 2 0, a.getD 3 0, b.getD 2 0, b.getD 3 0]
/-- `_mm_div_ps`, where the divisor lane is 0 the result (infinity or NaN) is not used by the code; here 0. -/
def divps (a b : RegF) : RegF := List.zipWith (fun x y => F32.div x y) a b
/-- `_mm_cmpeq_ps(a, _mm_setzero_ps())` followed by `_mm_blendv_ps(v, _mm_setzero_ps(), mask)`. -/
def zeroWhereZero (a v : RegF) : RegF := List.zipWith (fun y x => if y = 0 then 0 else x) a v

/-- A 256-bit float register: its halves. -/
abbrev RegF2 := RegF × RegF
/-- An operation on both halves. -/
def bothF (f : RegF → RegF → RegF) (a b : RegF2) : RegF2 := (f a.1 b.1, f a.2 b.2)
/-- `_mm256_permute2x128_si256::<32>`: the low halves. -/
def permLowF (a b : RegF2) : RegF2 := (a.1, b.1)
/-- `_mm256_permute2x128_si256::<49>`: the high halves. -/
def permHighF (a b : RegF2) : RegF2 := (a.2, b.2)
/-- `_mm256_loadu_ps(ptr.add(8 * k))`. -/
def regFAt2 (l : List ℚ) (k : ℕ) : RegF2 := (regFAt l (2 * k), regFAt l (2 * k + 1))

/-- `sse_deinterleave_rgba_ps`, `src/sse/utils.rs:51-66`. -/
def sseDeinterleaveF (v0 v1 v2 v3 : RegF) : RegF × RegF × RegF × RegF :=
  let t02lo := unpackloF v0 v2
  let t13lo := unpackloF v1 v3
  let t02hi := unpackhiF v0 v2
  let t13hi := unpackhiF v1 v3
  (unpackloF t02lo t13lo, unpackhiF t02lo t13lo, unpackloF t02hi t13hi, unpackhiF t02hi t13hi)

/-- `sse_interleave_rgba_ps`, `src/sse/utils.rs:69-85`, followed by the four stores. -/
def sseInterleaveF (v0 v1 v2 v3 : RegF) : List ℚ :=
  let u0 := unpackloF v0 v2
  let u1 := unpackloF v1 v3
  let u2 := unpackhiF v0 v2
  let u3 := unpackhiF v1 v3
  unpackloF u0 u1 ++ unpackhiF u0 u1 ++ unpackloF u2 u3 ++ unpackhiF u2 u3

/-- `avx_deinterleave_rgba_ps`, `src/avx2/utils.rs:122-143`, `:228-246`. -/
def avxDeinterleaveF (p0 p1 p2 p3 : RegF2) : RegF2 × RegF2 × RegF2 × RegF2 :=
  let p01l := bothF unpackloF p0 p1
  let p01h := bothF unpackhiF p0 p1
  let p23l := bothF unpackloF p2 p3
  let p23h := bothF unpackhiF p2 p3
  let pll := permLowF p01l p23l
  let plh := permHighF p01l p23l
  let phl := permLowF p01h p23h
  let phh := permHighF p01h p23h
  (bothF unpackloF pll plh, bothF unpackhiF pll plh, bothF unpackloF phl phh, bothF unpackhiF phl phh)

/-- `avx_interleave_rgba_ps`, `src/avx2/utils.rs:146-168`, `:249-267`, followed by the four stores. -/
def avxInterleaveF (p0 p1 p2 p3 : RegF2) : List ℚ :=
  let bg0 := bothF unpackloF p0 p1
  let bg1 := bothF unpackhiF p0 p1
  let ra0 := bothF unpackloF p2 p3
  let ra1 := bothF unpackhiF p2 p3
  let q0 := bothF unpacklo64F bg0 ra0
  let q1 := bothF unpackhi64F bg0 ra0
  let q2 := bothF unpacklo64F bg1 ra1
  let q3 := bothF unpackhi64F bg1 ra1
  let o0 := permLowF q0 q1
  let o2 := permHighF q0 q1
  let o1 := permLowF q2 q3
  let o3 := permHighF q2 q3
  o0.1 ++ o0.2 ++ (o1.1 ++ o1.2) ++ (o2.1 ++ o2.2) ++ (o3.1 ++ o3.2)

/-! ### chunks and rows -/

/-- `sse_unpremultiply_row_f32`, `src/sse/alpha_f32.rs:41-45`; `avx_unpremultiply_row_f32`
(`src/avx2/alpha_f32.rs:43-47`) on each half. -/
def unpremulLanesF (x a : RegF) : RegF := zeroWhereZero a (divps x a)

/-- The loop bodies of `src/sse/alpha_f32.rs:62-81`, `:129-147`: 4 pixels. -/
def sseChunkF (colour : RegF → RegF → RegF) (l : List ℚ) : List ℚ :=
  let (r, g, b, a) := sseDeinterleaveF (regFAt l 0) (regFAt l 1) (regFAt l 2) (regFAt l 3)
  sseInterleaveF (colour r a) (colour g a) (colour b a) a

/-- The loop bodies of `src/avx2/alpha_f32.rs:65-84`, `:135-155`: 8 pixels. -/
def avxChunkF (colour : RegF → RegF → RegF) (l : List ℚ) : List ℚ :=
  let (r, g, b, a) := avxDeinterleaveF (regFAt2 l 0) (regFAt2 l 1) (regFAt2 l 2) (regFAt2 l 3)
  avxInterleaveF (bothF colour r a) (bothF colour g a) (bothF colour b a) a

/-- `sse_premultiply_alpha_rgba_f32_row_impl` (`src/sse/alpha_f32.rs:123-153`),
`avx_premultiply_alpha_rgba_f32_row_impl` (`src/avx2/alpha_f32.rs:129-161`): full chunks of `P` samples, then
the scalar code for the rest. -/
def premulRowF (P : ℕ) (chunk : List ℚ → List ℚ) (dst src : List ℚ) : Option (List ℚ) := do
  let body ← updChunks P (fun _ s => some (chunk s)) dst (chunksExact P src)
  let rest ← alphaRow (premultiplyPixelF F32.rnd) (chunksRemainder P dst) (chunksRemainder P src)
  some (body.take (dst.length / P * P) ++ rest)

/-- `sse_unpremultiply_alpha_rgba_f32_row_impl` (`src/sse/alpha_f32.rs:60-87`),
`avx_unpremultiply_alpha_rgba_f32_row_impl` (`src/avx2/alpha_f32.rs:62-90`). -/
def unpremulRowF (P : ℕ) (chunk : List ℚ → List ℚ) (row : List ℚ) : Option (List ℚ) := do
  let body ← updChunks P (fun d _ => some (chunk d)) row (List.replicate (row.length / P) ())
  let rest ← alphaRowInPlace (unpremultiplyPixelF F32.rnd) (chunksRemainder P row)
  some (body.take (row.length / P * P) ++ rest)

/-! ### selection -/

/-- RGBA f32 on x86: `premultiply_alpha_rgba_f32`, `unpremultiply_alpha_rgba_f32`
(`src/alpha_handle_f32.rs:133-200`); the check has no vector version (`src/image_store.rs:659-680`). -/
def alphaX86F32 (cpu : Cpu) (bits : ℚ → ℕ) : AlphaOps ℚ where
  isNeeded := (alphaF32 F32.rnd bits).isNeeded
  premultiply :=
    if cpu.avx2 then premultiplyImageWith (premulRowF 32 (avxChunkF mulps))
    else if cpu.sse41 then premultiplyImageWith (premulRowF 16 (sseChunkF mulps))
    else premultiplyImage (premultiplyPixelF F32.rnd)
  unpremultiply :=
    if cpu.avx2 then unpremultiplyImageWith (unpremulRowF 32 (avxChunkF unpremulLanesF))
    else if cpu.sse41 then unpremultiplyImageWith (unpremulRowF 16 (sseChunkF unpremulLanesF))
    else unpremultiplyImage (unpremultiplyPixelF F32.rnd)

end PicScale
