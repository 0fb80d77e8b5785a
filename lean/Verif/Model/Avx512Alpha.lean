import Verif.Model.Avx512
import Verif.Model.AlphaX86

/-!
RGBA8 alpha handling with AVX-512 (feature `nightly_avx512`): `src/avx512/alpha_u8.rs`, `src/avx512/check_alpha.rs`
and the (de)interleaving of `src/avx512/utils.rs`.

A 512-bit register is the list of its 64 bytes. Instructions that act on each 128-bit lane are built from the
128-bit ones. `rcp` stands for `_mm512_rcp14_ps`.

Not modelled: the `nightly_avx512fp16` variant of unpremultiplication (`src/avx512/alpha_u8.rs:257-367`).
-/

namespace PicScale

/-- Load of register `k` of an array of bytes. -/
def regAt512 (l : List ℕ) (k : ℕ) : List ℕ := ((l.drop (64 * k)).take 64).map (· % 256)
/-- 128-bit lane `j`. -/
def lane512 (v : List ℕ) (j : ℕ) : Reg := (v.drop (16 * j)).take 16
/-- An instruction that acts on each 128-bit lane of two registers. -/
def perLane (f : Reg → Reg → Reg) (a b : List ℕ) : List ℕ :=
  f (lane512 a 0) (lane512 b 0) ++ f (lane512 a 1) (lane512 b 1) ++ f (lane512 a 2) (lane512 b 2) ++
    f (lane512 a 3) (lane512 b 3)
/-- `_mm512_shuffle_epi8` with the same mask in each lane (only the low four bits of an index count). -/
def shuffle512 (v : List ℕ) (m : List ℤ) : List ℕ :=
  shuffle8 (lane512 v 0) m ++ shuffle8 (lane512 v 1) m ++ shuffle8 (lane512 v 2) m ++ shuffle8 (lane512 v 3) m
/-- `_mm512_permutex2var_epi8/32/64(a, idx, b)` for elements of `w` bytes. -/
def permutex2 (w : ℕ) (a : List ℕ) (idx : List ℕ) (b : List ℕ) : List ℕ :=
  idx.flatMap fun i => ((a ++ b).drop (w * i)).take w

/-- `mask0` of `avx512_deinterleave_rgba`, `src/avx512/utils.rs:44-49,74`: 0, 2, 4, … -/
def evenIdx (n : ℕ) : List ℕ := (List.range n).map fun i => 2 * i
/-- `mask1`, `src/avx512/utils.rs:50-55,75`: 1, 3, 5, … -/
def oddIdx (n : ℕ) : List ℕ := (List.range n).map fun i => 2 * i + 1

/-- `avx512_deinterleave_rgba`, `src/avx512/utils.rs:37-88`. -/
def avx512Deinterleave (vbmi : Bool) (r0 r1 r2 r3 : List ℕ) : List ℕ × List ℕ × List ℕ × List ℕ :=
  if vbmi then
    let br01 := permutex2 1 r0 (evenIdx 64) r1
    let ga01 := permutex2 1 r0 (oddIdx 64) r1
    let br23 := permutex2 1 r2 (evenIdx 64) r3
    let ga23 := permutex2 1 r2 (oddIdx 64) r3
    let a := permutex2 1 br01 (evenIdx 64) br23
    let c := permutex2 1 br01 (oddIdx 64) br23
    let b := permutex2 1 ga01 (evenIdx 64) ga23
    let d := permutex2 1 ga01 (oddIdx 64) ga23
    (a, b, c, d)
  else
    let s0 := shuffle512 r0 planeMask
    let s1 := shuffle512 r1 planeMask
    let s2 := shuffle512 r2 planeMask
    let s3 := shuffle512 r3 planeMask
    let br01 := permutex2 4 s0 (evenIdx 16) s1
    let ga01 := permutex2 4 s0 (oddIdx 16) s1
    let br23 := permutex2 4 s2 (evenIdx 16) s3
    let ga23 := permutex2 4 s2 (oddIdx 16) s3
    let a := permutex2 4 br01 (evenIdx 16) br23
    let c := permutex2 4 br01 (oddIdx 16) br23
    let b := permutex2 4 ga01 (evenIdx 16) ga23
    let d := permutex2 4 ga01 (oddIdx 16) ga23
    (a, b, c, d)

/-- `avx512_zip_epi8`, `src/avx512/utils.rs:90-120`. -/
def avx512Zip (vbmi : Bool) (a b : List ℕ) : List ℕ × List ℕ :=
  if vbmi then
    (permutex2 1 a ((List.range 32).flatMap fun i => [i, 64 + i]) b,
      permutex2 1 a ((List.range 32).flatMap fun i => [32 + i, 96 + i]) b)
  else
    let low := perLane unpacklo8 a b
    let high := perLane unpackhi8 a b
    (permutex2 8 low [0, 1, 8, 9, 2, 3, 10, 11] high, permutex2 8 low [4, 5, 12, 13, 6, 7, 14, 15] high)

/-- `avx512_interleave_rgba`, `src/avx512/utils.rs:122-134`, followed by the four stores. -/
def avx512Interleave (vbmi : Bool) (a b c d : List ℕ) : List ℕ :=
  let br := avx512Zip vbmi a c
  let ga := avx512Zip vbmi b d
  let lo := avx512Zip vbmi br.1 ga.1
  let hi := avx512Zip vbmi br.2 ga.2
  lo.1 ++ lo.2 ++ hi.1 ++ hi.2

/-- `AssociateAlphaDefault::associate_chunk`, `src/avx512/alpha_u8.rs:46-79`: 16 pixels; the alpha bytes are
multiplied by alpha like the colours. Shorter chunks are loaded with zeros after the end and only their
length is stored, which `alphaChunks` does with its padded buffer; the masked load of the source is inside it
as both rows have the same length (`none` otherwise in `alphaChunks`). `avx512_div_by255` is
`src/avx512/utils.rs:136-144`. -/
def avx512PremulChunk (l : List ℕ) : List ℕ :=
  let v := regAt512 l 0
  perLane premulLanes v (shuffle512 v [3, 3, 3, 3, 7, 7, 7, 7, 11, 11, 11, 11, 15, 15, 15, 15])

/-- `Avx512DisassociateAlpha::disassociate_chunk`, `src/avx512/alpha_u8.rs:148-218`: 64 pixels. Each lane of
`avx512_unpremultiply_row` is the AVX2 code with another reciprocal instruction. -/
def avx512UnpremulChunk (vbmi : Bool) (rcp : ℚ → ℚ) (l : List ℕ) : List ℕ :=
  let (r, g, b, a) := avx512Deinterleave vbmi (regAt512 l 0) (regAt512 l 1) (regAt512 l 2) (regAt512 l 3)
  avx512Interleave vbmi (perLane (unpremulLanes rcp packus32) r a) (perLane (unpremulLanes rcp packus32) g a)
    (perLane (unpremulLanes rcp packus32) b a) a

/-- The 16 lane sums of `avx512_has_non_constant_cap_alpha_rgba8_impl`: four per 128-bit lane. -/
def addAlphas8Avx512 (first : ℕ) (s : Reg × Reg × Reg × Reg) (c : List ℕ) : Reg × Reg × Reg × Reg :=
  (addAlphas8 first c s.1 0, addAlphas8 first c s.2.1 1, addAlphas8 first c s.2.2.1 2, addAlphas8 first c s.2.2.2 3)

/-- One row of `avx512_has_non_constant_cap_alpha_rgba8_impl`, `src/avx512/check_alpha.rs:63-88`:
`chunks_exact(64)`, so the pixels after the last full chunk are not looked at.
`_mm512_reduce_add_epi32` adds the 16 lanes, wrapping. -/
def avx512AlphaRow8 (first : ℕ) (row : List ℕ) : ℤ :=
  let s := (chunksExact 64 row).foldl (addAlphas8Avx512 first) (setzero, setzero, setzero, setzero)
  i32 ((lanes32 s.1).sum + (lanes32 s.2.1).sum + (lanes32 s.2.2.1).sum + (lanes32 s.2.2.2).sum)

/-- RGBA8 alpha handling: `src/alpha_handle_u8.rs:137-217`, `src/image_store.rs:556-591`, with the feature
`nightly_avx512`. -/
def alpha512U8 (cpu : Cpu512) (rcp : ℚ → ℚ) : AlphaOps ℕ where
  isNeeded := fun img =>
    if cpu.avx512 then alphaVariesBy avx512AlphaRow8 img.buffer img.width (img.strideOf 4)
    else (alphaX86U8 cpu.base rcp).isNeeded img
  premultiply :=
    if cpu.avx512 then premultiplyImageWith (alphaChunks 64 avx512PremulChunk)
    else (alphaX86U8 cpu.base rcp).premultiply
  unpremultiply :=
    if cpu.avx512 then unpremultiplyImageWith (alphaChunksInPlace 256 (avx512UnpremulChunk cpu.vbmi rcp))
    else (alphaX86U8 cpu.base rcp).unpremultiply

end PicScale
