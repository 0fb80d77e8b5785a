import Verif.Model.Alpha
import Verif.Model.X86

/-!
Alpha handling of RGBA8 and the alpha checks on `x86_64`: `src/sse/alpha_u8.rs`, `src/avx2/alpha_u8.rs`,
`src/sse/check_alpha.rs`, `src/avx2/check_alpha.rs`, the (de)interleaving in `src/sse/utils.rs` and
`src/avx2/utils.rs`, and the selection in `src/alpha_handle_u8.rs` and `src/image_store.rs` (default
features). 256-bit registers are pairs (low half, high half).

Every chunk function below is called on slices of exactly the length it loads and stores (from
`chunks_exact`, or on a local array), so loads are total here. Samples are reduced modulo 256 when they
enter a register (a `u8` is below 256 already).
-/

namespace PicScale

/-! ### more instructions -/

/-- `__m128`: four binary32 lanes. -/
abbrev RegF := List ℚ
/-- `__m256i`. -/
abbrev Reg2 := Reg × Reg

/-- Alternate groups of four elements of two lists. -/
def interleave4 {α : Type _} : List α → List α → List α
  | a :: b :: c :: d :: as, a' :: b' :: c' :: d' :: bs =>
    a :: b :: c :: d :: a' :: b' :: c' :: d' :: interleave4 as bs
  | _, _ => []
/-- `_mm_unpacklo_epi32`. -/
def unpacklo32 (a b : Reg) : Reg := interleave4 (a.take 8) (b.take 8)
/-- `_mm_unpackhi_epi32`. -/
def unpackhi32 (a b : Reg) : Reg := interleave4 (a.drop 8) (b.drop 8)
/-- `_mm_mullo_epi16`: low 16 bits of the products. -/
def mullo16 (a b : Reg) : Reg :=
  ofLanes16 (List.zipWith (fun x y => i16 (x * y)) (lanes16 a) (lanes16 b))
/-- `_mm_cmpeq_epi8`. -/
def cmpeq8 (a b : Reg) : Reg := List.zipWith (fun x y => if x = y then 255 else 0) a b
/-- One byte of `_mm_blendv_epi8(a, b, m)`: `b` where the top bit of `m` is set. -/
def blend1 (a b m : ℕ) : ℕ := if 128 ≤ m then b else a
/-- `_mm_blendv_epi8(a, b, m)`. -/
def blendv8 (a b m : Reg) : Reg := List.zipWith (fun f m => f m) (List.zipWith blend1 a b) m
/-- `_mm_xor_si128`. -/
def xorBytes (a b : Reg) : Reg := List.zipWith (fun x y => x ^^^ y) a b
/-- `_mm_cvtepi32_ps`. -/
def cvtepi32ps (a : Reg) : RegF := (lanes32 a).map fun (v : ℤ) => F32.rnd (v : ℚ)
/-- `_mm_set1_ps`. -/
def set1ps (v : ℚ) : RegF := List.replicate 4 v
/-- `_mm_mul_ps`. -/
def mulps (a b : RegF) : RegF := List.zipWith (fun x y => F32.mul x y) a b
/-- `_mm_rcp_ps`: an approximation of the reciprocal, given by the processor. -/
def rcpps (rcp : ℚ → ℚ) (a : RegF) : RegF := a.map rcp
/-- One lane of `_mm_cvtps_epi32`: nearest integer (even in a tie), or the "integer indefinite" value. -/
def cvt1 (q : ℚ) : ℤ :=
  if -2147483648 ≤ F32.rhe q ∧ F32.rhe q < 2147483648 then F32.rhe q else -2147483648
/-- `_mm_cvtps_epi32`. -/
def cvtpsepi32 (a : RegF) : Reg := ofLanes32 (a.map cvt1)
/-- `_mm256_permute2x128_si256::<32>`: the low halves. -/
def permLow (a b : Reg2) : Reg2 := (a.1, b.1)
/-- `_mm256_permute2x128_si256::<49>`: the high halves. -/
def permHigh (a b : Reg2) : Reg2 := (a.2, b.2)
/-- A 256-bit instruction that treats both halves alike. -/
def both (f : Reg → Reg → Reg) (a b : Reg2) : Reg2 := (f a.1 b.1, f a.2 b.2)
/-- Load of register `k` of a byte array. -/
def regAt (l : List ℕ) (k : ℕ) : Reg := ((l.drop (16 * k)).take 16).map (· % 256)
/-- 256-bit load of register `k` of a byte array. -/
def regAt2 (l : List ℕ) (k : ℕ) : Reg2 := (regAt l (2 * k), regAt l (2 * k + 1))

/-! ### RGBA planes -/

/-- The transposition mask, `src/sse/utils.rs:110-115`, `src/avx2/utils.rs:89-97` (each half). -/
def planeMask : List ℤ := [0, 4, 8, 12, 1, 5, 9, 13, 2, 6, 10, 14, 3, 7, 11, 15]

/-- `sse_deinterleave_rgba`, `src/sse/utils.rs:87-122`. -/
def sseDeinterleave (r0 r1 r2 r3 : Reg) : Reg × Reg × Reg × Reg :=
  let t0 := unpacklo8 r0 r1
  let t1 := unpackhi8 r0 r1
  let t2 := unpacklo8 r2 r3
  let t3 := unpackhi8 r2 r3
  let t4 := unpacklo16 t0 t2
  let t5 := unpackhi16 t0 t2
  let t6 := unpacklo16 t1 t3
  let t7 := unpackhi16 t1 t3
  let l1 := unpacklo32 t4 t6
  let l2 := unpackhi32 t4 t6
  let l3 := unpacklo32 t5 t7
  let l4 := unpackhi32 t5 t7
  (shuffle8 (unpacklo32 l1 l3) planeMask, shuffle8 (unpackhi32 l1 l3) planeMask,
    shuffle8 (unpacklo32 l2 l4) planeMask, shuffle8 (unpackhi32 l2 l4) planeMask)

/-- `sse_interleave_rgba`, `src/sse/utils.rs:124-141`, followed by the four stores. -/
def sseInterleave (r g b a : Reg) : List ℕ :=
  let rgLo := unpacklo8 r g
  let rgHi := unpackhi8 r g
  let baLo := unpacklo8 b a
  let baHi := unpackhi8 b a
  unpacklo16 rgLo baLo ++ unpackhi16 rgLo baLo ++ unpacklo16 rgHi baHi ++ unpackhi16 rgHi baHi

/-- `avx2_deinterleave_rgba`, `src/avx2/utils.rs:81-120`. -/
def avxDeinterleave (r0 r1 r2 r3 : Reg2) : Reg2 × Reg2 × Reg2 × Reg2 :=
  let p0 := (shuffle8 r0.1 planeMask, shuffle8 r0.2 planeMask)
  let p1 := (shuffle8 r1.1 planeMask, shuffle8 r1.2 planeMask)
  let p2 := (shuffle8 r2.1 planeMask, shuffle8 r2.2 planeMask)
  let p3 := (shuffle8 r3.1 planeMask, shuffle8 r3.2 planeMask)
  let p01l := both unpacklo32 p0 p1
  let p01h := both unpackhi32 p0 p1
  let p23l := both unpacklo32 p2 p3
  let p23h := both unpackhi32 p2 p3
  let pll := permLow p01l p23l
  let plh := permHigh p01l p23l
  let phl := permLow p01h p23h
  let phh := permHigh p01h p23h
  (both unpacklo32 pll plh, both unpackhi32 pll plh, both unpacklo32 phl phh, both unpackhi32 phl phh)

/-- `avx2_interleave_rgba`, `src/avx2/utils.rs:269-292`, followed by the four stores. -/
def avxInterleave (r g b a : Reg2) : List ℕ :=
  let bg0 := both unpacklo8 r g
  let bg1 := both unpackhi8 r g
  let ra0 := both unpacklo8 b a
  let ra1 := both unpackhi8 b a
  let q0 := both unpacklo16 bg0 ra0
  let q1 := both unpackhi16 bg0 ra0
  let q2 := both unpacklo16 bg1 ra1
  let q3 := both unpackhi16 bg1 ra1
  let o0 := permLow q0 q1
  let o2 := permHigh q0 q1
  let o1 := permLow q2 q3
  let o3 := permHigh q2 q3
  o0.1 ++ o0.2 ++ (o1.1 ++ o1.2) ++ (o2.1 ++ o2.2) ++ (o3.1 ++ o3.2)

/-! ### premultiplication -/

/-- `_mm_div_by_255_epi16`, `src/sse/alpha_u8.rs:49-55`; `avx2_div_by255` (`src/avx2/utils.rs:73-79`) is the
same on each half. -/
def div255Lanes (v : Reg) : Reg := srli16 8 (add16 (add16 v (set1epi16 127)) (srli16 8 v))

/-- Widen, multiply, divide by 255, pack: what `premultiply_chunk` does to each colour plane
(`src/sse/alpha_u8.rs:147-176`) and `associate_chunk` to each half of the pixels
(`src/avx2/alpha_u8.rs:69-87`). -/
def premulLanes (x a : Reg) : Reg :=
  packus16 (div255Lanes (mullo16 (unpacklo8 x setzero) (unpacklo8 a setzero)))
    (div255Lanes (mullo16 (unpackhi8 x setzero) (unpackhi8 a setzero)))

/-- `Sse41PremultiplyExecutor8Default::premultiply_chunk`, `src/sse/alpha_u8.rs:137-184`: 16 pixels. -/
def ssePremulChunk (l : List ℕ) : List ℕ :=
  let (r, g, b, a) := sseDeinterleave (regAt l 0) (regAt l 1) (regAt l 2) (regAt l 3)
  sseInterleave (premulLanes r a) (premulLanes g a) (premulLanes b a) a

/-- `AssociateAlphaDefault::associate_chunk`, `src/avx2/alpha_u8.rs:63-92`: 8 pixels; the alpha bytes are
multiplied by alpha like the colours. -/
def avxPremulChunk (l : List ℕ) : List ℕ :=
  let mask : List ℤ := [3, 3, 3, 3, 7, 7, 7, 7, 11, 11, 11, 11, 15, 15, 15, 15]
  let v := regAt2 l 0
  premulLanes v.1 (shuffle8 v.1 mask) ++ premulLanes v.2 (shuffle8 v.2 mask)

/-! ### unpremultiplication -/

/-- Four lanes of `sse_unpremultiply_row`: `255 c * rcp(a)` rounded (`src/sse/alpha_u8.rs:65-108`; written
out four times there). -/
def unpremulQuarter (rcp : ℚ → ℚ) (x a : Reg) : Reg :=
  cvtpsepi32 (mulps (mulps (cvtepi32ps x) (set1ps 255)) (rcpps rcp (cvtepi32ps a)))

/-- `sse_unpremultiply_row` (`src/sse/alpha_u8.rs:57-113`) and each half of `avx2_unpremultiply_row`
(`src/avx2/alpha_u8.rs:189-245`), which differ in the first packing instruction. -/
def unpremulLanes (rcp : ℚ → ℚ) (pack : Reg → Reg → Reg) (x a : Reg) : Reg :=
  let lo := unpacklo8 x setzero
  let hi := unpackhi8 x setzero
  let isZero := cmpeq8 a setzero
  let aLo := unpacklo8 a setzero
  let aHi := unpackhi8 a setzero
  let lolo := unpremulQuarter rcp (unpacklo16 lo setzero) (unpacklo16 aLo setzero)
  let lohi := unpremulQuarter rcp (unpackhi16 lo setzero) (unpackhi16 aLo setzero)
  let hilo := unpremulQuarter rcp (unpacklo16 hi setzero) (unpacklo16 aHi setzero)
  let hihi := unpremulQuarter rcp (unpackhi16 hi setzero) (unpackhi16 aHi setzero)
  blendv8 (packus16 (pack lolo lohi) (pack hilo hihi)) setzero isZero

/-- `DisassociateAlphaDefault::disassociate_chunk`, `src/sse/alpha_u8.rs:286-306`: 16 pixels. -/
def sseUnpremulChunk (rcp : ℚ → ℚ) (l : List ℕ) : List ℕ :=
  let (r, g, b, a) := sseDeinterleave (regAt l 0) (regAt l 1) (regAt l 2) (regAt l 3)
  sseInterleave (unpremulLanes rcp packs32 r a) (unpremulLanes rcp packs32 g a)
    (unpremulLanes rcp packs32 b a) a

/-- `Avx2DisassociateAlpha::disassociate_chunk`, `src/avx2/alpha_u8.rs:248-267`: 32 pixels. -/
def avxUnpremulChunk (rcp : ℚ → ℚ) (l : List ℕ) : List ℕ :=
  let (r, g, b, a) := avxDeinterleave (regAt2 l 0) (regAt2 l 1) (regAt2 l 2) (regAt2 l 3)
  avxInterleave (both (unpremulLanes rcp packus32) r a) (both (unpremulLanes rcp packus32) g a)
    (both (unpremulLanes rcp packus32) b a) a

/-! ### rows and images -/

/-- The row executors (`src/sse/alpha_u8.rs:188-218`, `src/avx2/alpha_u8.rs:95-121`), called with rows of
`width * 4` samples: full chunks of `P`
samples, then the rest through a zeroed buffer of `P` samples. The `assert_eq!` on the lengths of the two
remainders is the `none`. -/
def alphaChunks (P : ℕ) (chunk : List ℕ → List ℕ) (dst src : List ℕ) : Option (List ℕ) := do
  let body ← updChunks P (fun _ s => some (chunk s)) dst (chunksExact P src)
  let rem := chunksRemainder P dst
  let srcRem := chunksRemainder P src
  if rem = [] then some body
  else if srcRem.length = rem.length then
    some (body.take (dst.length / P * P) ++
      (chunk (srcRem ++ List.replicate (P - srcRem.length) 0)).take rem.length)
  else none

/-- The in-place row executors (`src/sse/alpha_u8.rs:310-332`, `src/avx2/alpha_u8.rs:270-291`). -/
def alphaChunksInPlace (P : ℕ) (chunk : List ℕ → List ℕ) (row : List ℕ) : Option (List ℕ) := do
  let body ← updChunks P (fun d _ => some (chunk d)) row (List.replicate (row.length / P) ())
  let rem := chunksRemainder P row
  if rem = [] then some body
  else some (body.take (row.length / P * P) ++
      (chunk (rem ++ List.replicate (P - rem.length) 0)).take rem.length)

/-! ### alpha checks -/

/-- `_mm_hsum_epi32`, `src/sse/utils.rs:217-225`, `src/avx2/routines.rs:89-97`. -/
def hsum32 (x : Reg) : ℤ :=
  let sum64 := add32 (shuffle32 [2, 3, 0, 1] x) x
  let sum32 := add32 sum64 (shufflelo16 [2, 3, 0, 1] sum64)
  (lanes32 sum32).getD 0 0

/-- The mask of the RGBA8 checks: the alpha byte of each pixel in a 32-bit lane
(`src/sse/check_alpha.rs:55`, `src/avx2/check_alpha.rs:54-59`). -/
def alphaMask8 : List ℤ := [3, -1, -1, -1, 7, -1, -1, -1, 11, -1, -1, -1, 15, -1, -1, -1]

/-- `sums + (alphas ^ def_alpha)` for the four pixels of register `k` of a chunk. -/
def addAlphas8 (first : ℕ) (chunk : List ℕ) (sums : Reg) (k : ℕ) : Reg :=
  add32 sums (xorBytes (shuffle8 (regAt chunk k) alphaMask8) (set1epi32 first))

/-- The scalar tail, `for chunk in row.chunks_exact(4) { h_sum += chunk[3] as i32 ^ first_alpha as i32 }`
(wrapping, as in a release build). -/
def alphaTail (first : ℕ) (h : ℤ) (row : List ℕ) : ℤ :=
  (chunksExact 4 row).foldl (fun h p => i32 (h + ((p.getD 3 0 ^^^ first : ℕ) : ℤ))) h

/-- One row of `sse_has_non_constant_cap_alpha_rgba8_impl`, `src/sse/check_alpha.rs:61-98`. -/
def sseAlphaRow8 (first : ℕ) (row : List ℕ) : ℤ :=
  let sums := (chunksExact 64 row).foldl (fun s c => [0, 1, 2, 3].foldl (addAlphas8 first c) s) setzero
  let row := chunksRemainder 64 row
  let sums := (chunksExact 16 row).foldl (fun s c => addAlphas8 first c s 0) sums
  let row := chunksRemainder 16 row
  alphaTail first (hsum32 sums) row

/-- The four 256-bit additions of a chunk of 128 bytes (or one of a chunk of 32), in both halves. -/
def addAlphas8Avx (first : ℕ) (chunk : List ℕ) (sums : Reg2) (k : ℕ) : Reg2 :=
  (addAlphas8 first chunk sums.1 (2 * k), addAlphas8 first chunk sums.2 (2 * k + 1))

/-- One row of `avx_has_non_constant_cap_alpha_rgba8_impl`, `src/avx2/check_alpha.rs:65-120`. -/
def avxAlphaRow8 (first : ℕ) (row : List ℕ) : ℤ :=
  let sums := (chunksExact 128 row).foldl (fun s c => [0, 1, 2, 3].foldl (addAlphas8Avx first c) s)
    (setzero, setzero)
  let row := chunksRemainder 128 row
  let sums := (chunksExact 32 row).foldl (fun s c => addAlphas8Avx first c s 0) sums
  let row := chunksRemainder 32 row
  let sums := add32 sums.1 sums.2
  let sums := (chunksExact 16 row).foldl (fun s c => addAlphas8 first c s 0) sums
  let row := chunksRemainder 16 row
  alphaTail first (hsum32 sums) row

/-- Load of register `k` of an array of `u16`: eight samples. -/
def regAt16 (l : List ℕ) (k : ℕ) : Reg := ofLanes16 (((l.drop (8 * k)).take 8).map fun (v : ℕ) => (v : ℤ))

/-- The mask of the RGBA16 checks: the alphas of two pixels in the two low 32-bit lanes
(`src/sse/check_alpha.rs:126`, `src/avx2/check_alpha.rs:146-149`, each half). -/
def alphaMask16 : List ℤ := [6, 7, -1, -1, 14, 15, -1, -1, -1, -1, -1, -1, -1, -1, -1, -1]

/-- `sums + (unpacklo_epi32(r0, r1) ^ def_alpha)`, the two loads shuffled. -/
def addAlphas16 (first : ℕ) (r0 r1 : Reg) (sums : Reg) : Reg :=
  add32 sums (xorBytes (unpacklo32 (shuffle8 r0 alphaMask16) (shuffle8 r1 alphaMask16)) (set1epi32 first))

/-- One row of `sse_has_non_constant_cap_alpha_rgba16_impl`, `src/sse/check_alpha.rs:132-175`: chunks of 32
samples, then of 8 (the same register twice: each of the two alphas is counted twice), then pixels. -/
def sseAlphaRow16 (first : ℕ) (row : List ℕ) : ℤ :=
  let sums := (chunksExact 32 row).foldl (fun s c =>
    addAlphas16 first (regAt16 c 2) (regAt16 c 3) (addAlphas16 first (regAt16 c 0) (regAt16 c 1) s)) setzero
  let row := chunksRemainder 32 row
  let sums := (chunksExact 8 row).foldl (fun s c => addAlphas16 first (regAt16 c 0) (regAt16 c 0) s) sums
  let row := chunksRemainder 8 row
  alphaTail first (hsum32 sums) row

/-- One row of `avx_has_non_constant_cap_alpha_rgba16_impl`, `src/avx2/check_alpha.rs:154-202`: register `k`
of 16 samples is `(regAt16 c (2 * k), regAt16 c (2 * k + 1))`. -/
def avxAlphaRow16 (first : ℕ) (row : List ℕ) : ℤ :=
  let sums := (chunksExact 64 row).foldl (fun (s : Reg2) c =>
    (addAlphas16 first (regAt16 c 4) (regAt16 c 6) (addAlphas16 first (regAt16 c 0) (regAt16 c 2) s.1),
      addAlphas16 first (regAt16 c 5) (regAt16 c 7) (addAlphas16 first (regAt16 c 1) (regAt16 c 3) s.2)))
    (setzero, setzero)
  let row := chunksRemainder 64 row
  let sums := (chunksExact 16 row).foldl (fun (s : Reg2) c =>
    (addAlphas16 first (regAt16 c 0) (regAt16 c 0) s.1, addAlphas16 first (regAt16 c 1) (regAt16 c 1) s.2)) sums
  let row := chunksRemainder 16 row
  alphaTail first (hsum32 (add32 sums.1 sums.2)) row

/-- The loop over rows of the four checks (`src/sse/check_alpha.rs:60-104`, `:131-176`,
`src/avx2/check_alpha.rs:64-126`, `:153-203`): each row is summed from zero. An empty store counts as
varying. `row[0..width * 4]` cannot panic for a validated image. -/
def alphaVariesBy (rowSum : ℕ → List ℕ → ℤ) (store : List ℕ) (width stride : ℕ) : Bool :=
  if store = [] then true
  else (chunksExact stride store).any fun row => rowSum (store.getD 3 0) (row.take (width * 4)) != 0

/-! ### selection -/

/-- RGBA8 on x86: `premultiply_alpha_rgba` and `unpremultiply_alpha_rgba` (`src/alpha_handle_u8.rs:137-217`)
and `is_alpha_premultiplication_needed` (`src/image_store.rs:556-591`). -/
def alphaX86U8 (cpu : Cpu) (rcp : ℚ → ℚ) : AlphaOps ℕ where
  isNeeded := fun img =>
    if cpu.avx2 then alphaVariesBy avxAlphaRow8 img.buffer img.width (img.strideOf 4)
    else if cpu.sse41 then alphaVariesBy sseAlphaRow8 img.buffer img.width (img.strideOf 4)
    else hasNonConstantAlpha (2 ^ 32) img.buffer img.width (img.strideOf 4)
  premultiply :=
    if cpu.avx2 then premultiplyImageWith (alphaChunks 32 avxPremulChunk)
    else if cpu.sse41 then premultiplyImageWith (alphaChunks 64 ssePremulChunk)
    else premultiplyImage premultiplyPixel8
  unpremultiply :=
    if cpu.avx2 then unpremultiplyImageWith (alphaChunksInPlace 128 (avxUnpremulChunk rcp))
    else if cpu.sse41 then unpremultiplyImageWith (alphaChunksInPlace 64 (sseUnpremulChunk rcp))
    else unpremultiplyImage unpremultiplyPixel8

/-- RGBA16 on x86: `is_alpha_premultiplication_needed` (`src/image_store.rs:628-658`). -/
def alphaNeededX86U16 (cpu : Cpu) (img : Image ℕ) : Bool :=
  if cpu.avx2 then alphaVariesBy avxAlphaRow16 img.buffer img.width (img.strideOf 4)
  else if cpu.sse41 then alphaVariesBy sseAlphaRow16 img.buffer img.width (img.strideOf 4)
  else hasNonConstantAlpha (2 ^ 64) img.buffer img.width (img.strideOf 4)

end PicScale
