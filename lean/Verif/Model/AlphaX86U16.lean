import Verif.Model.AlphaX86

/-!
Alpha handling of RGBA16 on `x86_64`: `src/sse/alpha_u16.rs`, `src/avx2/alpha_u16.rs`, the 16-bit
(de)interleaving in `src/sse/utils.rs` and `src/avx2/utils.rs`, and the selection in
`src/alpha_handle_u16.rs` (default features). Conventions as in `Model/AlphaX86.lean`; a `u16` array enters a
register through `regAt16` (reduced modulo `2^16`) and leaves it through `toU16`.
-/

namespace PicScale

/-! ### more instructions -/

/-- `_mm_srli_epi32::<n>`: logical shift of the unsigned lanes. -/
def srli32 (n : ℕ) (a : Reg) : Reg := ofLanes32 ((lanes32 a).map fun (v : ℤ) => (v % 4294967296) >>> n)
/-- `_mm_cmpeq_epi16`. -/
def cmpeq16 (a b : Reg) : Reg :=
  ofLanes16 (List.zipWith (fun x y => if x = y then -1 else 0) (lanes16 a) (lanes16 b))
/-- `_mm_add_ps`. -/
def addps (a b : RegF) : RegF := List.zipWith (fun x y => F32.add x y) a b
/-- `_mm256_fmadd_ps(a, b, c)` (one half): `a * b + c` rounded once. -/
def fmaddps (a b c : RegF) : RegF := List.zipWith (fun f z => f z) (List.zipWith (fun x y z => F32.rnd (x * y + z)) a b) c
/-- `_mm256_round_ps::<0x00>` (one half): nearest integer, even in a tie. -/
def roundps (a : RegF) : RegF := a.map fun q => ((F32.rhe q : ℤ) : ℚ)
/-- A store of a register into an array of `u16`. -/
def toU16 (a : Reg) : List ℕ := (lanes16 a).map fun (v : ℤ) => (v % 65536).toNat
/-- 256-bit load of register `k` of an array of `u16`. -/
def regAt16x2 (l : List ℕ) (k : ℕ) : Reg2 := (regAt16 l (2 * k), regAt16 l (2 * k + 1))

/-- Rounding to binary64 (53 bit significand), as `F32.rnd`. -/
def rnd64 (q : ℚ) : ℚ :=
  if q = 0 then 0
  else
    let e := max (F32.ilog2 |q| - 52) (-1074)
    (F32.rhe (q / F32.pow2 e) : ℚ) * F32.pow2 e

/-! ### RGBA planes of 16-bit samples -/

/-- `sse_deinterleave_rgba_epi16`, `src/sse/utils.rs:155-176`. -/
def sseDeinterleave16 (r0 r1 r2 r3 : Reg) : Reg × Reg × Reg × Reg :=
  let v0 := unpacklo16 r0 r2
  let v1 := unpackhi16 r0 r2
  let v2 := unpacklo16 r1 r3
  let v3 := unpackhi16 r1 r3
  let u0 := unpacklo16 v0 v2
  let u1 := unpacklo16 v1 v3
  let u2 := unpackhi16 v0 v2
  let u3 := unpackhi16 v1 v3
  (unpacklo16 u0 u1, unpackhi16 u0 u1, unpacklo16 u2 u3, unpackhi16 u2 u3)

/-- `sse_interleave_rgba_epi16`, `src/sse/utils.rs:180-199`, followed by the four stores. -/
def sseInterleave16 (a b c d : Reg) : List ℕ :=
  let u0 := unpacklo16 a c
  let u1 := unpackhi16 a c
  let u2 := unpacklo16 b d
  let u3 := unpackhi16 b d
  toU16 (unpacklo16 u0 u2) ++ toU16 (unpackhi16 u0 u2) ++ toU16 (unpacklo16 u1 u3) ++ toU16 (unpackhi16 u1 u3)

/-- The shuffle mask of `avx_deinterleave_rgba_epi16` (each half), `src/avx2/utils.rs:201-204`. -/
def planeMask16 : List ℤ := [0, 1, 8, 9, 2, 3, 10, 11, 4, 5, 12, 13, 6, 7, 14, 15]

/-- `avx_deinterleave_rgba_epi16`, `src/avx2/utils.rs:195-225`. -/
def avxDeinterleave16 (r0 r1 r2 r3 : Reg2) : Reg2 × Reg2 × Reg2 × Reg2 :=
  let p0 := (shuffle8 r0.1 planeMask16, shuffle8 r0.2 planeMask16)
  let p1 := (shuffle8 r1.1 planeMask16, shuffle8 r1.2 planeMask16)
  let p2 := (shuffle8 r2.1 planeMask16, shuffle8 r2.2 planeMask16)
  let p3 := (shuffle8 r3.1 planeMask16, shuffle8 r3.2 planeMask16)
  let p01l := both unpacklo32 p0 p1
  let p01h := both unpackhi32 p0 p1
  let p23l := both unpacklo32 p2 p3
  let p23h := both unpackhi32 p2 p3
  let pll := permLow p01l p23l
  let plh := permHigh p01l p23l
  let phl := permLow p01h p23h
  let phh := permHigh p01h p23h
  (both unpacklo32 pll plh, both unpackhi32 pll plh, both unpacklo32 phl phh, both unpackhi32 phl phh)

/-- `avx_interleave_rgba_epi16`, `src/avx2/utils.rs:171-192`, followed by the four stores. -/
def avxInterleave16 (a b c d : Reg2) : List ℕ :=
  let bg0 := both unpacklo16 a b
  let bg1 := both unpackhi16 a b
  let ra0 := both unpacklo16 c d
  let ra1 := both unpackhi16 c d
  let q0 := both unpacklo32 bg0 ra0
  let q1 := both unpackhi32 bg0 ra0
  let q2 := both unpacklo32 bg1 ra1
  let q3 := both unpackhi32 bg1 ra1
  let o0 := permLow q0 q1
  let o2 := permHigh q0 q1
  let o1 := permLow q2 q3
  let o3 := permHigh q2 q3
  toU16 o0.1 ++ toU16 o0.2 ++ (toU16 o1.1 ++ toU16 o1.2) ++ (toU16 o2.1 ++ toU16 o2.2) ++ (toU16 o3.1 ++ toU16 o3.2)

/-! ### premultiplication -/

/-- `_mm_div_by_1023_epi32`, `_mm_div_by_4095_epi32`, `_mm_div_by_65535_epi32`
(`src/sse/alpha_u16.rs:66-89`; AVX2: `src/avx2/alpha_u16.rs:75-98`), with `k` = 10, 12, 16. -/
def divByLanes (k : ℕ) (v : Reg) : Reg :=
  let v := add32 v (set1epi32 (2 ^ (k - 1)))
  srli32 k (add32 v (srli32 k v))

/-- One colour plane of `Sse41PremultiplyExecutorDefault::premultiply_chunk`
(`src/sse/alpha_u16.rs:311-325`) and each half of `Avx2PremultiplyExecutorDefault::premultiply_chunk`
(`src/avx2/alpha_u16.rs:146-177`). -/
def premulLanesInt (k : ℕ) (x a : Reg) : Reg :=
  packus32 (divByLanes k (madd16 (unpacklo16 x setzero) (unpacklo16 a setzero)))
    (divByLanes k (madd16 (unpackhi16 x setzero) (unpackhi16 a setzero)))

/-- `_mm_div_by::<BIT_DEPTH>` / `_mm256_div_by_epi32::<BIT_DEPTH>`: the exponent used for a depth
(`src/sse/alpha_u16.rs:91-100`, `src/avx2/alpha_u16.rs:100-109`). -/
def divExponent (depth : ℕ) : ℕ := if depth = 10 then 10 else if depth = 12 then 12 else 16

/-- `sse_premultiply_row_u16`, `src/sse/alpha_u16.rs:235-255`, with the conversions of alpha of
`Sse41PremultiplyExecutorAny::premultiply_chunk` (`:383-384`). -/
def premulLanesSse (scale : ℚ) (x a : Reg) : Reg :=
  packs32
    (cvtpsepi32 (mulps (mulps (cvtepi32ps (unpacklo16 x setzero)) (set1ps scale)) (cvtepi32ps (unpacklo16 a setzero))))
    (cvtpsepi32 (mulps (mulps (cvtepi32ps (unpackhi16 x setzero)) (set1ps scale)) (cvtepi32ps (unpackhi16 a setzero))))

/-- One half of `_mm256_scale_by_alpha::<FMA>` before packing, `src/avx2/alpha_u16.rs:47-69`. -/
def scaleQuarter (fma : Bool) (px : Reg) (a : RegF) : Reg :=
  cvtpsepi32 (if fma then fmaddps (cvtepi32ps px) a (set1ps (1 / 2)) else roundps (mulps (cvtepi32ps px) a))

/-- `_mm256_scale_by_alpha::<FMA>`, `src/avx2/alpha_u16.rs:42-72` (each half of the register). -/
def scaleByAlpha (fma : Bool) (x : Reg) (aLo aHi : RegF) : Reg :=
  packus32 (scaleQuarter fma (unpacklo16 x setzero) aLo) (scaleQuarter fma (unpackhi16 x setzero) aHi)

/-- One colour plane of `Avx2PremultiplyExecutorAnyBit::premultiply_chunk`,
`src/avx2/alpha_u16.rs:238-251` (each half). -/
def premulLanesAvx (fma : Bool) (scale : ℚ) (x a : Reg) : Reg :=
  scaleByAlpha fma x (mulps (cvtepi32ps (unpacklo16 a setzero)) (set1ps scale))
    (mulps (cvtepi32ps (unpackhi16 a setzero)) (set1ps scale))

/-- Deinterleave, transform the colour planes, interleave with the untouched alpha plane: the chunk
functions of `src/sse/alpha_u16.rs` (`:302-335`, `:375-398`, `:124-160`), 8 pixels. -/
def sseChunk16 (colour : Reg → Reg → Reg) (l : List ℕ) : List ℕ :=
  let (r, g, b, a) := sseDeinterleave16 (regAt16 l 0) (regAt16 l 1) (regAt16 l 2) (regAt16 l 3)
  sseInterleave16 (colour r a) (colour g a) (colour b a) a

/-- The same with 256-bit registers, `src/avx2/alpha_u16.rs` (`:137-186`, `:224-262`, `:431-470`), 16
pixels. -/
def avxChunk16 (colour : Reg → Reg → Reg) (l : List ℕ) : List ℕ :=
  let (r, g, b, a) := avxDeinterleave16 (regAt16x2 l 0) (regAt16x2 l 1) (regAt16x2 l 2) (regAt16x2 l 3)
  avxInterleave16 (both colour r a) (both colour g a) (both colour b a) a

/-- `premultiply_alpha_sse_rgba_u16_row_impl`, `src/sse/alpha_u16.rs:446-473`; the scale of the general
executor is `1 / max_colors` (`:409-410`). -/
def ssePremulRow16 (depth : ℕ) : List ℕ → List ℕ → Option (List ℕ) :=
  alphaChunks 32 (sseChunk16 (
    if depth = 10 ∨ depth = 12 ∨ depth = 16 then premulLanesInt (divExponent depth)
    else premulLanesSse (F32.div 1 (F32.rnd ((2 ^ depth - 1 : ℕ) : ℚ)))))

/-- `avx_premultiply_alpha_rgba_u16_row`, `src/avx2/alpha_u16.rs:326-356`; the scale of the general
executor is `(1. / max_colors as f64) as f32` (`:276`), and FMA is detected at run time (`:316-320`). -/
def avxPremulRow16 (fma : Bool) (depth : ℕ) : List ℕ → List ℕ → Option (List ℕ) :=
  alphaChunks 64 (avxChunk16 (
    if depth = 10 ∨ depth = 12 ∨ depth = 16 then premulLanesInt (divExponent depth)
    else premulLanesAvx fma (F32.rnd (rnd64 (1 / ((2 ^ depth - 1 : ℕ) : ℚ))))))

/-! ### unpremultiplication -/

/-- Alpha lanes to `rcp(a) * max_colors` (`src/sse/alpha_u16.rs:132-146`,
`src/avx2/alpha_u16.rs:445-453`). -/
def alphaRecip (rcp : ℚ → ℚ) (maxColors : ℕ) (a : Reg) : RegF :=
  mulps (rcpps rcp (cvtepi32ps a)) (set1ps (F32.rnd maxColors))

/-- `sse_unpremultiply_row_u16`, `src/sse/alpha_u16.rs:40-63`. -/
def unpremulLanes16Sse (rcp : ℚ → ℚ) (maxColors : ℕ) (x a : Reg) : Reg :=
  let aLo := alphaRecip rcp maxColors (unpacklo16 a setzero)
  let aHi := alphaRecip rcp maxColors (unpackhi16 a setzero)
  let lo := cvtpsepi32 (addps (set1ps (1 / 2)) (mulps (cvtepi32ps (unpacklo16 x setzero)) aLo))
  let hi := cvtpsepi32 (addps (set1ps (1 / 2)) (mulps (cvtepi32ps (unpackhi16 x setzero)) aHi))
  blendv8 (packs32 lo hi) x (cmpeq16 a setzero)

/-- One colour plane of `avx_unpremultiply_alpha_rgba_u16_row_impl`, `src/avx2/alpha_u16.rs:431-470` and
(remainder) `:474-517`, each half. -/
def unpremulLanes16Avx (fma : Bool) (rcp : ℚ → ℚ) (maxColors : ℕ) (x a : Reg) : Reg :=
  let aLo := alphaRecip rcp maxColors (unpacklo16 a setzero)
  let aHi := alphaRecip rcp maxColors (unpackhi16 a setzero)
  blendv8 (scaleByAlpha fma x aLo aHi) x (cmpeq16 a setzero)

/-- `DisassociateAlphaDefault::disassociate`, `src/sse/alpha_u16.rs:163-188`. -/
def sseUnpremulRow16 (rcp : ℚ → ℚ) (depth : ℕ) : List ℕ → Option (List ℕ) :=
  alphaChunksInPlace 32 (sseChunk16 (unpremulLanes16Sse rcp (2 ^ depth - 1)))

/-- `avx_unpremultiply_alpha_rgba_u16_row_impl::<FMA>`, `src/avx2/alpha_u16.rs:421-518`. -/
def avxUnpremulRow16 (fma : Bool) (rcp : ℚ → ℚ) (depth : ℕ) : List ℕ → Option (List ℕ) :=
  alphaChunksInPlace 64 (avxChunk16 (unpremulLanes16Avx fma rcp (2 ^ depth - 1)))

/-! ### selection -/

/-- RGBA16 on x86: `premultiply_alpha_rgba_u16`, `unpremultiply_alpha_rgba_u16`
(`src/alpha_handle_u16.rs:183-261`) with the depth of the destination (`src/image_store.rs:604-619`,
`:702-716`), and the check of `Model/AlphaX86.lean`. -/
def alphaX86U16 (cpu : Cpu) (fma : Bool) (rcp : ℚ → ℚ) : AlphaOps ℕ where
  isNeeded := alphaNeededX86U16 cpu
  premultiply := fun src dst =>
    if cpu.avx2 then premultiplyImageWith (avxPremulRow16 fma dst.bitDepth) src dst
    else if cpu.sse41 then premultiplyImageWith (ssePremulRow16 dst.bitDepth) src dst
    else premultiplyImage (premultiplyPixel16 (2 ^ dst.bitDepth - 1)) src dst
  unpremultiply := fun img =>
    if cpu.avx2 then unpremultiplyImageWith (avxUnpremulRow16 fma rcp img.bitDepth) img
    else if cpu.sse41 then unpremultiplyImageWith (sseUnpremulRow16 rcp img.bitDepth) img
    else unpremultiplyImage (unpremultiplyPixel16 (2 ^ img.bitDepth - 1)) img

end PicScale
