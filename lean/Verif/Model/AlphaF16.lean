import Verif.Model.AlphaX86U16
import Verif.Model.AlphaX86F32
import Verif.Model.X86Ar30
import Verif.Model.F16Bits

/-!
Alpha handling of RGBA f16 images (`nightly_f16`): `src/alpha_handle_f16.rs`, `src/sse/alpha_f16.rs`,
`src/avx2/alpha_f16.rs`. Samples are patterns (`Model/F16Bits.lean`); the f32 registers hold numbers, so the signs of
zeros, infinities and NaN are not followed through arithmetic. NEON: `Model/NeonAlphaF16.lean`.
-/

namespace PicScale

/-! ### portable -/

/-- The pixel body of `premultiply_pixel_f16_row`, `src/alpha_handle_f16.rs:67-82`. Alpha is widened and narrowed. -/
def premultiplyPixelH (o : HalfOps ℕ ℚ) : List ℕ → Option (List ℕ) :=
  pixelOp (fun c a => o.narrow (F32.mul (o.widen c) (o.widen a))) (fun a => o.narrow (o.widen a))

/-- The pixel body of `unpremultiply_pixel_f16_row`, `src/alpha_handle_f16.rs:44-65`. -/
def unpremultiplyPixelH (o : HalfOps ℕ ℚ) : List ℕ → Option (List ℕ) :=
  pixelOp (fun c a => o.narrow (if o.widen a ≠ 0 then F32.mul (o.widen c) (F32.div 1 (o.widen a)) else 0)) (fun a => a)

/-! ### lanes -/

/-- `_mm_cvtph_psx`: the low four halves of a register, widened by `cv`. -/
def cvtph (cv : ℕ → ℚ) (a : Reg) : RegF := ((lanes16 a).take 4).map fun v => cv (v % 65536).toNat
/-- `_mm_cvtps_phx`: four halves, narrowed by `nv`, in the low part of a register. -/
def cvtpsph (nv : ℚ → ℕ) (a : RegF) : Reg := ofLanes16 (a.map (fun q => (nv q : ℤ)) ++ List.replicate 4 0)
/-- `_mm_srli_si128::<8>`: the high part of a register. -/
def highPart (a : Reg) : Reg := a.drop 8 ++ List.replicate 8 0

/-- An operation on four f32 lanes, for the eight halves of a plane: `src/sse/alpha_f16.rs:104-127`, `:226-276`; each
128-bit half of `src/avx2/alpha_f16.rs:72-101`, `:173-229` (where `_mm256_cvtph_ps` widens the eight halves at
once). -/
def laneHalves (cv : ℕ → ℚ) (nv : ℚ → ℕ) (f : RegF → RegF → RegF) (x a : Reg) : Reg :=
  unpacklo64 (cvtpsph nv (f (cvtph cv x) (cvtph cv a)))
    (cvtpsph nv (f (cvtph cv (highPart x)) (cvtph cv (highPart a))))

/-- One colour of `sse_unpremultiply_alpha_rgba_f16_row_impl` (`src/sse/alpha_f16.rs:226-243`) and of
`avx_unpremultiply_alpha_rgba_f16_row_impl` (`src/avx2/alpha_f16.rs:173-190`), on four lanes: **times** alpha, and 0
where alpha is 0. -/
def unpremulLanesH (x a : RegF) : RegF := zeroWhereZero a (mulps x a)

/-! ### rows -/

/-- `sse_premultiply_alpha_rgba_row_f16_impl` (`src/sse/alpha_f16.rs:91-141`),
`avx_premultiply_alpha_rgba_f16_row_impl` (`src/avx2/alpha_f16.rs:55-115`): full chunks of `P` samples, then the
portable code for the rest. -/
def premulRowH (o : HalfOps ℕ ℚ) (P : ℕ) (chunk : List ℕ → List ℕ) (dst src : List ℕ) : Option (List ℕ) := do
  let body ← updChunks P (fun _ s => some (chunk s)) dst (chunksExact P src)
  let rest ← alphaRow (premultiplyPixelH o) (chunksRemainder P dst) (chunksRemainder P src)
  some (body.take (dst.length / P * P) ++ rest)

/-- `sse_unpremultiply_alpha_rgba_f16_row_impl` (`src/sse/alpha_f16.rs:214-289`),
`avx_unpremultiply_alpha_rgba_f16_row_impl` (`src/avx2/alpha_f16.rs:160-242`). -/
def unpremulRowH (o : HalfOps ℕ ℚ) (P : ℕ) (chunk : List ℕ → List ℕ) (row : List ℕ) : Option (List ℕ) := do
  let body ← updChunks P (fun d _ => some (chunk d)) row (List.replicate (row.length / P) ())
  let rest ← alphaRowInPlace (unpremultiplyPixelH o) (chunksRemainder P row)
  some (body.take (row.length / P * P) ++ rest)

/-! ### selection -/

/-- RGBA f16: `premultiply_alpha_rgba_f16`, `unpremultiply_alpha_rgba_f16` (`src/alpha_handle_f16.rs:128-204`); the
check always says yes (`src/image_store.rs:698-700`). -/
def alphaF16 (cpu : HalfCpu) (o : HalfOps ℕ ℚ) : AlphaOps ℕ where
  isNeeded := fun _ => true
  premultiply :=
    if cpu.avx2 && cpu.f16c then
      premultiplyImageWith (premulRowH o 64 (avxChunk16 (laneHalves o.widen o.narrow mulps)))
    else if cpu.sse41 then
      premultiplyImageWith (premulRowH o 32 (sseChunk16 (laneHalves (o.widenX cpu.f16c) (o.narrowX cpu.f16c) mulps)))
    else premultiplyImage (premultiplyPixelH o)
  unpremultiply :=
    if cpu.avx2 && cpu.f16c then
      unpremultiplyImageWith (unpremulRowH o 64 (avxChunk16 (laneHalves o.widen o.narrow unpremulLanesH)))
    else if cpu.sse41 then
      unpremultiplyImageWith
        (unpremulRowH o 32 (sseChunk16 (laneHalves (o.widenX cpu.f16c) (o.narrowX cpu.f16c) unpremulLanesH)))
    else unpremultiplyImage (unpremultiplyPixelH o)

end PicScale
