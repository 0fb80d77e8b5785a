import Verif.Model.Simd

/-!
Model of the x86 vertical 8-bit handlers: `src/sse/vertical_u8.rs`, `src/avx2/vertical_u8.rs`,
`src/sse/vertical_u8_lp.rs`, `src/avx2/vertical_u8_lp.rs` (the AVX2 ones without the
`nightly_avx512` feature, so `HAS_DOT = false`).

256-bit accumulators: every arithmetic instruction of the AVX2 handlers (`unpacklo/hi_epi8`,
`madd_epi16`, `add`, `srai`, `srli`, `mulhrs`, `packs`, `packus`) works on the two 128-bit halves
independently, so a group of 256-bit registers is kept as (group of low halves, group of high
halves), and the AVX2 code is the SSE code on each half; only the loads, stores and cross-lane
permutations treat the halves together.
-/

namespace PicScale

/-- Four accumulator registers: 16 consecutive samples, four 32-bit lanes each. -/
structure Quad where
  s0 : Reg
  s1 : Reg
  s2 : Reg
  s3 : Reg
  deriving DecidableEq, Repr

/-- The four registers set to `vld = _mm_set1_epi32(ROUNDING_CONST)`,
`src/sse/vertical_u8.rs:73-81`. -/
def Quad.init : Quad :=
  ⟨set1epi32 ROUNDING_CONST, set1epi32 ROUNDING_CONST, set1epi32 ROUNDING_CONST,
    set1epi32 ROUNDING_CONST⟩

/-- Two source rows at once, `src/sse/vertical_u8.rs:101-114` (and `:116-129`, and per half
`src/avx2/vertical_u8.rs:101-114,121-134`). -/
def dotRows (st : Quad) (row0 row1 w : Reg) : Quad :=
  let interleaved := unpacklo8 row0 row1
  let s0 := add32 st.s0 (madd16 (unpacklo8 interleaved setzero) w)
  let s1 := add32 st.s1 (madd16 (unpackhi8 interleaved setzero) w)
  let interleaved := unpackhi8 row0 row1
  let s2 := add32 st.s2 (madd16 (unpacklo8 interleaved setzero) w)
  let s3 := add32 st.s3 (madd16 (unpackhi8 interleaved setzero) w)
  ⟨s0, s1, s2, s3⟩

/-- `dot_prod`, `src/sse/vertical_u8.rs:37-60` (per half: `src/avx2/vertical_u8.rs:38-59`): one row,
interleaved with zeros. -/
def dotProd (st : Quad) (v w : Reg) : Quad :=
  let interleaved := unpacklo8 v setzero
  let s0 := add32 st.s0 (madd16 (unpacklo8 interleaved setzero) w)
  let s1 := add32 st.s1 (madd16 (unpackhi8 interleaved setzero) w)
  let interleaved := unpackhi8 v setzero
  let s2 := add32 st.s2 (madd16 (unpacklo8 interleaved setzero) w)
  let s3 := add32 st.s3 (madd16 (unpackhi8 interleaved setzero) w)
  ⟨s0, s1, s2, s3⟩

/-- `packus(packs(s0, s1), packs(s2, s3))` without any shift, `src/sse/vertical_u8.rs:148-150`. -/
def Quad.packRaw (q : Quad) : Reg :=
  packus16 (packs32 q.s0 q.s1) (packs32 q.s2 q.s3)

/-- The same after `srai::<PRECISION>` of the four accumulators, `src/sse/vertical_u8.rs:197-206`,
`src/avx2/vertical_u8.rs:151-164,203-210`. -/
def Quad.pack (q : Quad) : Reg :=
  packus16 (packs32 (srai32 PRECISION q.s0) (srai32 PRECISION q.s1))
    (packs32 (srai32 PRECISION q.s2) (srai32 PRECISION q.s3))

/-- `convolve_vertical_part_sse_32`, `src/sse/vertical_u8.rs:62-160`. -/
def sse32 (b : Bounds) (src : List ℕ) (stride : ℕ) (filter : List ℤ) (px : ℕ) (dst : List ℕ) :
    Option (List ℕ) := do
  let (jj, st) ← whileAcc 2 2 b.size (fun jj (st : Quad × Quad) => do
    let off := stride * (b.start + jj) + px
    let w ← weightBytes filter jj 2
    let row0 ← load128 src off
    let row1 ← load128 src (off + stride)
    let row0' ← load128 src (off + 16)
    let row1' ← load128 src (off + stride + 16)
    some (dotRows st.1 row0 row1 (set1bytes32 w), dotRows st.2 row0' row1' (set1bytes32 w)))
    b.size 0 (Quad.init, Quad.init)
  let st ← forRange jj b.size (fun j (st : Quad × Quad) => do
    let off := stride * (b.start + j) + px
    let w ← filter[j]?
    let row0 ← load128 src off
    let row1 ← load128 src (off + 16)
    some (dotProd st.1 row0 (set1epi32 w), dotProd st.2 row1 (set1epi32 w))) st
  let dst ← writeAt? dst px st.1.packRaw
  writeAt? dst (px + 16) st.2.packRaw

/-- `convolve_vertical_part_sse_16`, `src/sse/vertical_u8.rs:162-211`. -/
def sse16 (b : Bounds) (src : List ℕ) (stride : ℕ) (filter : List ℤ) (px : ℕ) (dst : List ℕ) :
    Option (List ℕ) := do
  let st ← forRange 0 b.size (fun j (st : Quad) => do
    let w ← filter[j]?
    let row ← load128 src (stride * (b.start + j) + px)
    some (dotProd st row (set1epi32 w))) Quad.init
  writeAt? dst px st.pack

/-- One row of `convolve_vertical_part_sse_8`: `src/sse/vertical_u8.rs:334-346` and its copies in the
cases 2, 3, 4 (`:240-330`). -/
def sse8Step (b : Bounds) (src : List ℕ) (stride : ℕ) (filter : List ℤ) (px j : ℕ)
    (st : Reg × Reg) : Option (Reg × Reg) := do
  let w ← filter[j]?
  let row ← load64 src (stride * (b.start + j) + px)
  let low := unpacklo8 row setzero
  some (add32 st.1 (madd16 (unpacklo16 low setzero) (set1epi16 w)),
    add32 st.2 (madd16 (unpackhi16 low setzero) (set1epi16 w)))

/-- `convolve_vertical_part_sse_8`, `src/sse/vertical_u8.rs:213-360`. -/
def sse8 (b : Bounds) (src : List ℕ) (stride : ℕ) (filter : List ℤ) (px : ℕ) (dst : List ℕ) :
    Option (List ℕ) := do
  let step := sse8Step b src stride filter px
  let init := (set1epi32 ROUNDING_CONST, set1epi32 ROUNDING_CONST)
  let st ← unrolled24 b.size step step init
  let low16 := packus32 (srai32 PRECISION st.1) (srai32 PRECISION st.2)
  let item := packus16 low16 low16
  writeAt? dst px (item.take 8)

/-- One row of `convolve_vertical_part_sse`; the cases 2, 3, 4 (`src/sse/vertical_u8.rs:380-442`)
broadcast the weight with `set1_epi16`, the general loop (`:444-453`) with `set1_epi32`. -/
def sse1Step (wide : Bool) (b : Bounds) (src : List ℕ) (stride : ℕ) (filter : List ℤ) (px j : ℕ)
    (st : Reg) : Option Reg := do
  let w ← filter[j]?
  let item ← load8 src (stride * (b.start + j) + px)
  some (add32 st (madd16 item (if wide then set1epi32 w else set1epi16 w)))

/-- `convolve_vertical_part_sse`, `src/sse/vertical_u8.rs:362-466`. -/
def sse1 (b : Bounds) (src : List ℕ) (stride : ℕ) (filter : List ℤ) (px : ℕ) (dst : List ℕ) :
    Option (List ℕ) := do
  let step := sse1Step false b src stride filter px
  let init := set1epi32 ROUNDING_CONST
  let st ← unrolled24 b.size step (sse1Step true b src stride filter px) init
  let vegi := srai32 PRECISION st
  let low16 := packus32 vegi vegi
  let item := packus16 low16 low16
  writeAt? dst px (item.take 1)

/-- `convolve_vertical_sse_row`, `src/sse/vertical_u8.rs:468-534`. -/
def sseColumn (b : Bounds) (src dst : List ℕ) (stride : ℕ) (weight : List ℤ) :
    Option (List ℕ) := do
  let total := dst.length
  let (cx, d) ← whileBlocks 32 32 total (sse32 b src stride weight) total 0 dst
  let (cx, d) ← whileBlocks 16 16 total (sse16 b src stride weight) total cx d
  let (cx, d) ← whileBlocks 8 8 total (sse8 b src stride weight) total cx d
  let (_, d) ← whileBlocks 0 1 total (sse1 b src stride weight) total cx d
  some d

/-- `convolve_vertical_part_avx_64`, `src/avx2/vertical_u8.rs:61-175`. The state is (accumulators 0-3,
accumulators 4-7), each as (low halves, high halves). -/
def avx64 (b : Bounds) (src : List ℕ) (stride : ℕ) (filter : List ℤ) (px : ℕ) (dst : List ℕ) :
    Option (List ℕ) := do
  let (jj, st) ← whileAcc 2 2 b.size (fun jj (st : (Quad × Quad) × (Quad × Quad)) => do
    let off := stride * (b.start + jj) + px
    let w ← weightBytes filter jj 2
    let w := set1bytes32 w
    let r0l ← load128 src off
    let r0h ← load128 src (off + 16)
    let r1l ← load128 src (off + stride)
    let r1h ← load128 src (off + stride + 16)
    let q0l ← load128 src (off + 32)
    let q0h ← load128 src (off + 48)
    let q1l ← load128 src (off + stride + 32)
    let q1h ← load128 src (off + stride + 48)
    some ((dotRows st.1.1 r0l r1l w, dotRows st.1.2 r0h r1h w),
      (dotRows st.2.1 q0l q1l w, dotRows st.2.2 q0h q1h w)))
    b.size 0 ((Quad.init, Quad.init), (Quad.init, Quad.init))
  let st ← forRange jj b.size (fun j (st : (Quad × Quad) × (Quad × Quad)) => do
    let off := stride * (b.start + j) + px
    let w ← filter[j]?
    let r0l ← load128 src off
    let r0h ← load128 src (off + 16)
    let q0l ← load128 src (off + 32)
    let q0h ← load128 src (off + 48)
    some ((dotProd st.1.1 r0l (set1epi16 w), dotProd st.1.2 r0h (set1epi16 w)),
      (dotProd st.2.1 q0l (set1epi16 w), dotProd st.2.2 q0h (set1epi16 w)))) st
  let dst ← writeAt? dst px (st.1.1.pack ++ st.1.2.pack)
  writeAt? dst (px + 32) (st.2.1.pack ++ st.2.2.pack)

/-- `convolve_vertical_part_avx_32`, `src/avx2/vertical_u8.rs:177-215`. -/
def avx32 (b : Bounds) (src : List ℕ) (stride : ℕ) (filter : List ℤ) (px : ℕ) (dst : List ℕ) :
    Option (List ℕ) := do
  let st ← forRange 0 b.size (fun j (st : Quad × Quad) => do
    let off := stride * (b.start + j) + px
    let w ← filter[j]?
    let lo ← load128 src off
    let hi ← load128 src (off + 16)
    some (dotProd st.1 lo (set1epi16 w), dotProd st.2 hi (set1epi16 w))) (Quad.init, Quad.init)
  writeAt? dst px (st.1.pack ++ st.2.pack)

/-- `_mm256_permute4x64_epi64::<shuffle(3, 1, 2, 0)>`: swap the two middle 64-bit words
(`shuffle` is `src/avx2/utils.rs:49-51`). -/
def permuteMiddle (r : Reg × Reg) : Reg × Reg :=
  (r.1.take 8 ++ r.2.take 8, r.1.drop 8 ++ r.2.drop 8)

/-- `convolve_vertical_part_8_avx`, `src/avx2/vertical_u8.rs:217-266`. `_mm256_cvtepu16_epi32` of the
eight words is (words 0-3, words 4-7) interleaved with zero words. -/
def avx8 (b : Bounds) (src : List ℕ) (stride : ℕ) (filter : List ℤ) (px : ℕ) (dst : List ℕ) :
    Option (List ℕ) := do
  let st ← forRange 0 b.size (fun j (st : Reg × Reg) => do
    let w ← filter[j]?
    let row ← load64 src (stride * (b.start + j) + px)
    let words := unpacklo8 row setzero
    let item := (unpacklo16 words setzero, unpackhi16 words setzero)
    some (add32 st.1 (madd16 item.1 (set1epi16 w)), add32 st.2 (madd16 item.2 (set1epi16 w))))
    (set1epi32 ROUNDING_CONST, set1epi32 ROUNDING_CONST)
  let low16 := permuteMiddle (packus32 (srai32 PRECISION st.1) setzero,
    packus32 (srai32 PRECISION st.2) setzero)
  let item := permuteMiddle (packus16 low16.1 low16.1, packus16 low16.2 low16.2)
  writeAt? dst px (item.1.take 8)

/-- `convolve_vertical_part_avx`, `src/avx2/vertical_u8.rs:268-355`. Only byte 0 reaches the result,
so only the low halves of the registers are modelled; the cases 2, 3, 4 are copies of the general
loop (`_mm256_setr_epi32(v, 0, …)` and `_mm256_insert_epi8::<0>(zero, v)` are the same bytes). -/
def avx1 (b : Bounds) (src : List ℕ) (stride : ℕ) (filter : List ℤ) (px : ℕ) (dst : List ℕ) :
    Option (List ℕ) := do
  let step := sse1Step false b src stride filter px
  let init := set1epi32 ROUNDING_CONST
  let st ← unrolled24 b.size step step init
  let low16 := packus32 (srai32 PRECISION st) setzero
  let item := packus16 low16 low16
  writeAt? dst px (item.take 1)

/-- `convolve_vertical_avx_row`, `src/avx2/vertical_u8.rs:357-467`. -/
def avxColumn (b : Bounds) (src dst : List ℕ) (stride : ℕ) (weight : List ℤ) :
    Option (List ℕ) := do
  let total := dst.length
  let (cx, d) ← whileBlocks 64 64 total (avx64 b src stride weight) total 0 dst
  let (cx, d) ← whileBlocks 32 32 total (avx32 b src stride weight) total cx d
  let (cx, d) ← whileBlocks 8 8 total (avx8 b src stride weight) total cx d
  let (_, d) ← whileBlocks 0 1 total (avx1 b src stride weight) total cx d
  some d

/-! ### The low precision (`_lp`) handlers -/

/-- `ROUNDING = 1 << (6 - 1)`, `src/sse/vertical_u8_lp.rs:70-72`. -/
def LP_ROUNDING : ℤ := 32

/-- `mdot`, `src/sse/vertical_u8_lp.rs:48-60` (per half: `m256dot`,
`src/avx2/vertical_u8_lp.rs:49-68`). -/
def mdot (st : Reg × Reg) (row w : Reg) : Reg × Reg :=
  let lo := unpacklo8 row row
  let hi := unpackhi8 row row
  (add16 st.1 (mulhrs16 (srli16 2 lo) w), add16 st.2 (mulhrs16 (srli16 2 hi) w))

/-- The accumulation for row `j` on `R` groups of 16 bytes: `R = 4` in the 64-wide loops, 2 in the
32-wide ones, 1 in the 16-wide SSE one (`src/sse/vertical_u8_lp.rs:95-109,163-174,251-258` and the
unrolled copies; `src/avx2/vertical_u8_lp.rs:186-198,301-309` and the unrolled copies, where one
256-bit load is two of these 16-byte loads). -/
def lpStep (R : ℕ) (b : Bounds) (src : List ℕ) (stride : ℕ) (filter : List ℤ) (px j : ℕ)
    (st : List (Reg × Reg)) : Option (List (Reg × Reg)) := do
  let w ← filter[j]?
  let off := stride * (b.start + j) + px
  ((List.range R).zip st).mapM fun rs => do
    let row ← load128 src (off + 16 * rs.1)
    some (mdot rs.2 row (set1epi16 w))

/-- The end of a block: `packus(srai::<6>(store0), srai::<6>(store1))` for every group of 16 bytes,
stored one after the other. -/
def lpStore (px : ℕ) (st : List (Reg × Reg)) (dst : List ℕ) : Option (List ℕ) :=
  st.zipIdx.foldlM
    (fun d rs => writeAt? d (px + 16 * rs.2) (packus16 (srai16 6 rs.1.1) (srai16 6 rs.1.2))) dst

/-- A block of `R` groups with a plain loop over the rows: the 64- and 32-wide loops of
`src/sse/vertical_u8_lp.rs:80-198`. -/
def lpBlock (R : ℕ) (b : Bounds) (src : List ℕ) (stride : ℕ) (filter : List ℤ) (px : ℕ)
    (dst : List ℕ) : Option (List ℕ) := do
  let st ← forRange 0 b.size (lpStep R b src stride filter px)
    (List.replicate R (set1epi16 LP_ROUNDING, set1epi16 LP_ROUNDING))
  lpStore px st dst

/-- A block of `R` groups with the unrolled cases 2, 3, 4: the 16-wide loop of
`src/sse/vertical_u8_lp.rs:203-268`, the 64- and 32-wide loops of
`src/avx2/vertical_u8_lp.rs:92-325`. -/
def lpBlockUnrolled (R : ℕ) (b : Bounds) (src : List ℕ) (stride : ℕ) (filter : List ℤ) (px : ℕ)
    (dst : List ℕ) : Option (List ℕ) := do
  let step := lpStep R b src stride filter px
  let init := List.replicate R (set1epi16 LP_ROUNDING, set1epi16 LP_ROUNDING)
  let st ← unrolled24 b.size step step init
  lpStore px st dst

/-- The 8-wide loop, `src/sse/vertical_u8_lp.rs:273-297`, `src/avx2/vertical_u8_lp.rs:364-388`. -/
def lp8 (b : Bounds) (src : List ℕ) (stride : ℕ) (filter : List ℤ) (px : ℕ) (dst : List ℕ) :
    Option (List ℕ) := do
  let st ← forRange 0 b.size (fun j (st : Reg) => do
    let w ← filter[j]?
    let row ← load64 src (stride * (b.start + j) + px)
    let item := unpacklo8 row row
    some (add16 st (mulhrs16 (srli16 2 item) (set1epi16 w)))) (set1epi16 LP_ROUNDING)
  let rebased := srai16 6 st
  writeAt? dst px ((packus16 rebased rebased).take 8)

/-- The 1-wide loop, `src/sse/vertical_u8_lp.rs:302-326`, `src/avx2/vertical_u8_lp.rs:393-418`. The
byte is read with a bounds check (`src_ptr[0]`). -/
def lp1 (b : Bounds) (src : List ℕ) (stride : ℕ) (filter : List ℤ) (px : ℕ) (dst : List ℕ) :
    Option (List ℕ) := do
  let st ← forRange 0 b.size (fun j (st : Reg) => do
    let w ← filter[j]?
    let v ← loadBytes src (stride * (b.start + j) + px) 1
    let v ← v[0]?
    let item := unpacklo8 (set1epi8 v) (set1epi8 v)
    some (add16 st (mulhrs16 (srli16 2 item) (set1epi16 w)))) (set1epi16 LP_ROUNDING)
  let rebased := srai16 6 st
  writeAt? dst px ((packus16 rebased rebased).take 1)

/-- `_mm256_permute4x64_epi64::<0x50>(_mm256_castsi128_si256(v))`: 64-bit words 0, 0, 1, 1. -/
def permute50 (v : Reg) : Reg × Reg := (v.take 8 ++ v.take 8, v.drop 8 ++ v.drop 8)

/-- The 16-wide AVX2 loop, `src/avx2/vertical_u8_lp.rs:330-359`; `avx2_pack_u16` is
`src/avx2/utils.rs:294-298`. -/
def lp16avx (b : Bounds) (src : List ℕ) (stride : ℕ) (filter : List ℤ) (px : ℕ) (dst : List ℕ) :
    Option (List ℕ) := do
  let st ← forRange 0 b.size (fun j (st : Reg × Reg) => do
    let w ← filter[j]?
    let row ← load128 src (stride * (b.start + j) + px)
    let item := permute50 row
    let item := (unpacklo8 item.1 item.1, unpacklo8 item.2 item.2)
    some (add16 st.1 (mulhrs16 (srli16 2 item.1) (set1epi16 w)),
      add16 st.2 (mulhrs16 (srli16 2 item.2) (set1epi16 w))))
    (set1epi16 LP_ROUNDING, set1epi16 LP_ROUNDING)
  let st := (srai16 6 st.1, srai16 6 st.2)
  let packed := permuteMiddle (packus16 st.1 st.1, packus16 st.2 st.2)
  writeAt? dst px packed.1

/-- `convolve_vertical_sse_row_lp`, `src/sse/vertical_u8_lp.rs:35-327`. `for dst in
rem.chunks_exact_mut(B)` visits the offsets `cx, cx + B, …` as long as a whole chunk is left:
`while cx + (B - 1) < total`. -/
def sseColumnLp (b : Bounds) (src dst : List ℕ) (stride : ℕ) (weight : List ℤ) :
    Option (List ℕ) := do
  let total := dst.length
  let (cx, d) ← whileBlocks 63 64 total (lpBlock 4 b src stride weight) total 0 dst
  let (cx, d) ← whileBlocks 31 32 total (lpBlock 2 b src stride weight) total cx d
  let (cx, d) ← whileBlocks 15 16 total (lpBlockUnrolled 1 b src stride weight) total cx d
  let (cx, d) ← whileBlocks 7 8 total (lp8 b src stride weight) total cx d
  let (_, d) ← whileBlocks 0 1 total (lp1 b src stride weight) total cx d
  some d

/-- `convolve_vertical_avx_row_lp`, `src/avx2/vertical_u8_lp.rs:36-419`. -/
def avxColumnLp (b : Bounds) (src dst : List ℕ) (stride : ℕ) (weight : List ℤ) :
    Option (List ℕ) := do
  let total := dst.length
  let (cx, d) ← whileBlocks 63 64 total (lpBlockUnrolled 4 b src stride weight) total 0 dst
  let (cx, d) ← whileBlocks 31 32 total (lpBlockUnrolled 2 b src stride weight) total cx d
  let (cx, d) ← whileBlocks 15 16 total (lp16avx b src stride weight) total cx d
  let (cx, d) ← whileBlocks 7 8 total (lp8 b src stride weight) total cx d
  let (_, d) ← whileBlocks 0 1 total (lp1 b src stride weight) total cx d
  some d

end PicScale
