import Verif.Model.X86
import Verif.Model.Formats
import Verif.Model.AlphaX86U16

/-!
The u16 convolution passes on `x86_64` with the default features (`sse`, `avx`, no `nightly_avx512`):
`src/sse/vertical_u16_lb.rs`, `src/avx2/vertical_u16_lb.rs`, `src/sse/rgba_u16_lb.rs`,
`src/avx2/rgba_u16_lb.rs` (depths up to 12), `src/sse/vertical_u16.rs`, `src/sse/rgba_u16.rs` (deeper), and
the selection in `src/handler_provider.rs`.

Conventions as in `Model/Simd.lean`: a load outside the slice is `none`; 256-bit registers are (low half,
high half), `HAS_DOT = D = false`.
-/

namespace PicScale

/-! ### loads, stores and two more instructions -/

/-- `_mm_loadu_si128` of eight `u16` samples. -/
def load128w (src : List ℕ) (off : ℕ) : Option Reg :=
  (slice? src off (off + 8)).map fun l => ofLanes16 (l.map fun (v : ℕ) => (v : ℤ))
/-- `_mm_loadu_si64`/`_mm_loadl_epi64` of four `u16` samples, upper half zero. -/
def load64w (src : List ℕ) (off : ℕ) : Option Reg :=
  (slice? src off (off + 4)).map fun l => ofLanes16 (l.map fun (v : ℕ) => (v : ℤ)) ++ List.replicate 8 0
/-- `_mm_min_epi16`: signed. -/
def min16 (a b : Reg) : Reg := ofLanes16 (List.zipWith (fun (x y : ℤ) => min x y) (lanes16 a) (lanes16 b))
/-- `_mm_min_epi32`: signed. -/
def min32 (a b : Reg) : Reg := ofLanes32 (List.zipWith (fun (x y : ℤ) => min x y) (lanes32 a) (lanes32 b))

/-! ### the chunk loops of the vertical handlers -/

/-- `for (x, dst) in rem.chunks_exact_mut(B).enumerate() { let v_dx = v_px + x * B; …; cx = v_dx; }` where
`rem` is `dst[off..]` and `v_px` is the value `cx` has before the loop; `body v_dx` computes the `B` samples
of a chunk. The result is (where the remainder starts, the value of `cx` after the loop, the row): after a
chunk `cx` is the column where that chunk *started*, as in the code. -/
def chunkLoop (B : ℕ) (body : ℕ → Option (List ℕ)) (off cx : ℕ) (dst : List ℕ) :
    Option (ℕ × ℕ × List ℕ) := do
  let n := (dst.length - off) / B
  let d ← forRange 0 n (fun x d => do
    let v ← body (cx + x * B)
    writeAt? d (off + x * B) v) dst
  some (off + n * B, if n = 0 then cx else cx + (n - 1) * B, d)

/-! ### vertical, up to 12 bits -/

/-- One row for eight samples: `src/sse/vertical_u16_lb.rs:93-108` (two of these), `:144-151`; each half of
`src/avx2/vertical_u16_lb.rs:128-147,186-195`. -/
def lbDot (st : Reg × Reg) (row w : Reg) : Reg × Reg :=
  (add32 st.1 (madd16 (unpacklo16 row setzero) w), add32 st.2 (madd16 (unpackhi16 row setzero) w))

/-- One row for `R` groups of eight samples. -/
def lbStep (R : ℕ) (b : Bounds) (src : List ℕ) (stride : ℕ) (weight : List ℤ) (sx j : ℕ)
    (st : List (Reg × Reg)) : Option (List (Reg × Reg)) := do
  let w ← weight[j]?
  ((List.range R).zip st).mapM fun rs => do
    let row ← load128w src (stride * (b.start + j) + sx + 8 * rs.1)
    some (lbDot rs.2 row (set1epi16 w))

/-- `_mm_min_epi16(_mm_packus_epi32(srai(store0), srai(store1)), v_max_colors)`, stored:
`src/sse/vertical_u16_lb.rs:111-120,154-158`, each half of `src/avx2/vertical_u16_lb.rs:150-162,198-203`. -/
def lbNarrow (d : ℕ) (st : Reg × Reg) : List ℕ :=
  toU16 (min16 (packus32 (srai32 PRECISION st.1) (srai32 PRECISION st.2)) (set1epi16 (2 ^ d - 1)))

/-- A chunk of `8 R` samples: `R = 2` and `R = 1` in `src/sse/vertical_u16_lb.rs:76-123,130-161`, `R = 4` and
`R = 2` in `src/avx2/vertical_u16_lb.rs:110-165,172-206`. -/
def lbBlock (R d : ℕ) (b : Bounds) (src : List ℕ) (stride : ℕ) (weight : List ℤ) (sx : ℕ) :
    Option (List ℕ) := do
  let st ← forRange 0 (min b.size weight.length) (lbStep R b src stride weight sx)
    (List.replicate R (set1epi32 ROUNDING_CONST, set1epi32 ROUNDING_CONST))
  some (st.flatMap (lbNarrow d))

/-- A chunk of eight samples with AVX2, `src/avx2/vertical_u16_lb.rs:213-244`; `avx2_pack_u32` is
`src/avx2/utils.rs:301-306`. -/
def lbBlock8Avx (d : ℕ) (b : Bounds) (src : List ℕ) (stride : ℕ) (weight : List ℤ) (sx : ℕ) :
    Option (List ℕ) := do
  let st ← forRange 0 (min b.size weight.length) (fun j (st : Reg × Reg) => do
    let w ← weight[j]?
    let row ← load128w src (stride * (b.start + j) + sx)
    let item := permute50 row
    some (add32 st.1 (madd16 (unpacklo16 item.1 setzero) (set1epi16 w)),
      add32 st.2 (madd16 (unpacklo16 item.2 setzero) (set1epi16 w))))
    (set1epi32 ROUNDING_CONST, set1epi32 ROUNDING_CONST)
  let packed := permuteMiddle (packus32 (srai32 PRECISION st.1) setzero,
    packus32 (srai32 PRECISION st.2) setzero)
  some (toU16 (min16 packed.1 (set1epi16 (2 ^ d - 1))))

/-- One row for four samples, `src/sse/vertical_u16_lb.rs:173-274`, `src/avx2/vertical_u16_lb.rs:256-367`. -/
def lbStep4 (b : Bounds) (src : List ℕ) (stride : ℕ) (weight : List ℤ) (sx j : ℕ) (st : Reg) :
    Option Reg := do
  let w ← weight[j]?
  let row ← load64w src (stride * (b.start + j) + sx)
  some (add32 st (madd16 (unpacklo16 row setzero) (set1epi16 w)))

/-- A chunk of four samples, `src/sse/vertical_u16_lb.rs:168-282`, `src/avx2/vertical_u16_lb.rs:251-375`. -/
def lbBlock4 (d : ℕ) (b : Bounds) (src : List ℕ) (stride : ℕ) (weight : List ℤ) (sx : ℕ) :
    Option (List ℕ) := do
  let step := lbStep4 b src stride weight sx
  let st ← unrolled24 (if b.size ≤ 4 then b.size else min b.size weight.length) step step
    (set1epi32 ROUNDING_CONST)
  let v := srai32 PRECISION st
  some ((toU16 (min16 (packus32 v v) (set1epi16 (2 ^ d - 1)))).take 4)

/-- One row for one sample of the scalar tail, `src/sse/vertical_u16_lb.rs:293-353`,
`src/avx2/vertical_u16_lb.rs:386-446`. The `i32` additions wrap (release build). -/
def lbStep1 (b : Bounds) (src : List ℕ) (stride : ℕ) (weight : List ℤ) (sx j : ℕ) (st : ℤ) :
    Option ℤ := do
  let w ← weight[j]?
  let v ← src[stride * (b.start + j) + sx]?
  some (i32 (st + (v : ℤ) * w))

/-- The scalar tail, `src/sse/vertical_u16_lb.rs:288-356`, `src/avx2/vertical_u16_lb.rs:381-449`:
`(store0 >> PRECISION).max(0).min(max_colors)` is `saturateNarrow`. -/
def lbTail (d : ℕ) (b : Bounds) (src : List ℕ) (stride : ℕ) (weight : List ℤ) (sx : ℕ) :
    Option (List ℕ) := do
  let step := lbStep1 b src stride weight sx
  let st ← unrolled24 (if b.size ≤ 4 then b.size else min b.size weight.length) step step
    ROUNDING_CONST
  some [saturateNarrow (2 ^ d - 1) st]

/-- `convolve_column_lb_u16_impl`, `src/sse/vertical_u16_lb.rs:53-357`. -/
def sseColumnLb (d : ℕ) (b : Bounds) (src dst : List ℕ) (stride : ℕ) (weight : List ℤ) :
    Option (List ℕ) := do
  let (off, cx, r) ← chunkLoop 16 (lbBlock 2 d b src stride weight) 0 0 dst
  let (off, cx, r) ← chunkLoop 8 (lbBlock 1 d b src stride weight) off cx r
  let (off, cx, r) ← chunkLoop 4 (lbBlock4 d b src stride weight) off cx r
  let (_, _, r) ← chunkLoop 1 (lbTail d b src stride weight) off cx r
  some r

/-- `convolve_column_lb_avx_u16_impl::<false>`, `src/avx2/vertical_u16_lb.rs:86-450`. -/
def avxColumnLb (d : ℕ) (b : Bounds) (src dst : List ℕ) (stride : ℕ) (weight : List ℤ) :
    Option (List ℕ) := do
  let (off, cx, r) ← chunkLoop 32 (lbBlock 4 d b src stride weight) 0 0 dst
  let (off, cx, r) ← chunkLoop 16 (lbBlock 2 d b src stride weight) off cx r
  let (off, cx, r) ← chunkLoop 8 (lbBlock8Avx d b src stride weight) off cx r
  let (off, cx, r) ← chunkLoop 4 (lbBlock4 d b src stride weight) off cx r
  let (_, _, r) ← chunkLoop 1 (lbTail d b src stride weight) off cx r
  some r

/-! ### RGBA rows, up to 12 bits, SSE4.1 -/

/-- `conv_horiz_rgba_1_u16`, `src/sse/rgba_u16_lb.rs:36-51`, with `w0 = _mm_set1_epi16(w_ptr[0])`. -/
def rgbaLb16Px1 (src : List ℕ) (w : List ℤ) (b : Bounds) (jx o : ℕ) (store : Reg) : Option Reg := do
  let w0 ← w[jx]?
  let px ← load64w src (o + (b.start + jx) * 4)
  some (add32 store (madd16 (unpacklo16 px setzero) (set1epi16 w0)))

/-- `conv_horiz_rgba_2_u16`, `src/sse/rgba_u16_lb.rs:53-74`. -/
def rgbaLb16Px2 (src : List ℕ) (w : List ℤ) (b : Bounds) (jx o : ℕ) (store : Reg) : Option Reg := do
  let w0 ← w[jx]?
  let w1 ← w[jx + 1]?
  let px ← load128w src (o + (b.start + jx) * 4)
  let acc := add32 store (madd16 (unpackhi16 px setzero) (set1epi16 w1))
  some (add32 acc (madd16 (unpacklo16 px setzero) (set1epi16 w0)))

/-- Four pixels in the order 3, 2, 1, 0: the body of `conv_horiz_rgba_4_u16` and each half of
`conv_horiz_rgba_8_u16`, `src/sse/rgba_u16_lb.rs:92-109,131-163`. -/
def rgbaLb16Four (px0 px1 : Reg) (w0 w1 w2 w3 : ℤ) (store : Reg) : Reg :=
  let acc := add32 store (madd16 (unpackhi16 px1 setzero) (set1epi16 w3))
  let acc := add32 acc (madd16 (unpacklo16 px1 setzero) (set1epi16 w2))
  let acc := add32 acc (madd16 (unpackhi16 px0 setzero) (set1epi16 w1))
  add32 acc (madd16 (unpacklo16 px0 setzero) (set1epi16 w0))

/-- `conv_horiz_rgba_4_u16`, `src/sse/rgba_u16_lb.rs:76-110`. -/
def rgbaLb16Px4 (src : List ℕ) (w : List ℤ) (b : Bounds) (jx o : ℕ) (store : Reg) : Option Reg := do
  let w0 ← w[jx]?
  let w1 ← w[jx + 1]?
  let w2 ← w[jx + 2]?
  let w3 ← w[jx + 3]?
  let px0 ← load128w src (o + (b.start + jx) * 4)
  let px1 ← load128w src (o + (b.start + jx) * 4 + 8)
  some (rgbaLb16Four px0 px1 w0 w1 w2 w3 store)

/-- `conv_horiz_rgba_8_u16`, `src/sse/rgba_u16_lb.rs:112-164`. -/
def rgbaLb16Px8 (src : List ℕ) (w : List ℤ) (b : Bounds) (jx o : ℕ) (store : Reg) : Option Reg := do
  let w0 ← w[jx]?
  let w1 ← w[jx + 1]?
  let w2 ← w[jx + 2]?
  let w3 ← w[jx + 3]?
  let w4 ← w[jx + 4]?
  let w5 ← w[jx + 5]?
  let w6 ← w[jx + 6]?
  let w7 ← w[jx + 7]?
  let px0 ← load128w src (o + (b.start + jx) * 4)
  let px1 ← load128w src (o + (b.start + jx) * 4 + 8)
  let px2 ← load128w src (o + (b.start + jx) * 4 + 16)
  let px3 ← load128w src (o + (b.start + jx) * 4 + 24)
  some (rgbaLb16Four px2 px3 w4 w5 w6 w7 (rgbaLb16Four px0 px1 w0 w1 w2 w3 store))

/-- The end of a pixel: `srai`, `packus`, `min`, `_mm_storeu_si64`; `src/sse/rgba_u16_lb.rs:292-305,389-392`,
`src/avx2/rgba_u16_lb.rs:348-361,508-512`. -/
def rgbaLb16Store (d : ℕ) (store : Reg) : List ℕ :=
  let v := srai32 PRECISION store
  (toU16 (min16 (packus32 v v) (set1epi16 (2 ^ d - 1)))).take 4

/-- `convolve_horizontal_rgba_sse_rows_4_lb_u8_impl` and `convolve_horizontal_rgba_sse_u16_lb_row_impl`,
`src/sse/rgba_u16_lb.rs:187-307,321-394`. -/
def rgbaSseLb16 (d : ℕ) (src : List ℕ) (offs : List ℕ) (w : List ℤ) (b : Bounds) :
    Option (List (List ℕ)) := do
  let st := offs.map fun _ => set1epi32 ROUNDING_CONST
  let (jx, st) ← rowsLoop 8 8 b.size offs (rgbaLb16Px8 src w b) 0 st
  let (jx, st) ← rowsLoop 4 4 b.size offs (rgbaLb16Px4 src w b) jx st
  let (jx, st) ← rowsLoop 2 2 b.size offs (rgbaLb16Px2 src w b) jx st
  let (_, st) ← rowsLoop 0 1 b.size offs (rgbaLb16Px1 src w b) jx st
  some (st.map (rgbaLb16Store d))

/-! ### RGBA rows, up to 12 bits, AVX2 -/

/-- `shuffle_weights_table`, `src/avx2/rgba_u16_lb.rs:181,412` (and each half of `a_shuffle_weights_table`). -/
def avx16Weights : List ℤ := [0, 1, 2, 3, 0, 1, 2, 3, 0, 1, 2, 3, 0, 1, 2, 3]
/-- `shuffle_1_table`, `src/avx2/rgba_u16_lb.rs:183,414`. -/
def avx16Shuffle1 : List ℤ := [0, 1, -1, -1, 2, 3, -1, -1, 4, 5, -1, -1, 6, 7, -1, -1]
/-- `shuffle_2_table`, `src/avx2/rgba_u16_lb.rs:185,416` (and each half of `a_shuffle_2_table`). -/
def avx16Shuffle2 : List ℤ := [0, 1, 8, 9, 2, 3, 10, 11, 4, 5, 12, 13, 6, 7, 14, 15]
/-- `permute_avx_weights`: `(0, 2, 0, 0 | 1, 3, 1, 1)` in the four-row handler
(`src/avx2/rgba_u16_lb.rs:187`), `(0, 0, 0, 0 | 1, 1, 1, 1)` in the one-row handler (`:418`). -/
def avx16Permute (four : Bool) : List ℕ × List ℕ :=
  if four then ([0, 2, 0, 0], [1, 3, 1, 1]) else ([0, 0, 0, 0], [1, 1, 1, 1])

/-- Eight pixels: `acc_8_dot`, `src/avx2/rgba_u16_lb.rs:80-96`, and the weights `:270-287,454-468`. The eight
weights are loaded through a pointer taken from a slice of four. -/
def rgbaAvx16Px8 (four : Bool) (src : List ℕ) (w : List ℤ) (b : Bounds) (jx o : ℕ) (store : Reg × Reg) :
    Option (Reg × Reg) := do
  let wl ← loadWeights w jx 8
  let w0 := shuffle8x2 (shuffle32 (avx16Permute four).1 wl, shuffle32 (avx16Permute four).2 wl) avx16Weights
  let w1 := shuffle8x2 (shuffle32 [2, 2, 2, 2] wl, shuffle32 [3, 3, 3, 3] wl) avx16Weights
  let p0l ← load128w src (o + (b.start + jx) * 4)
  let p0h ← load128w src (o + (b.start + jx) * 4 + 8)
  let p1l ← load128w src (o + (b.start + jx) * 4 + 16)
  let p1h ← load128w src (o + (b.start + jx) * 4 + 24)
  let p0 := dot16x2 store (shuffle8x2 (p0l, p0h) avx16Shuffle2) w0
  some (dot16x2 p0 (shuffle8x2 (p1l, p1h) avx16Shuffle2) w1)

/-- Four pixels: `acc_4_dot`, `src/avx2/rgba_u16_lb.rs:66-78`, and the weights `:289-304,470-482`. -/
def rgbaAvx16Px4 (four : Bool) (src : List ℕ) (w : List ℤ) (b : Bounds) (jx o : ℕ) (store : Reg × Reg) :
    Option (Reg × Reg) := do
  let wl ← loadWeights w jx 4
  let w0 := shuffle8x2 (shuffle32 (avx16Permute four).1 wl, shuffle32 (avx16Permute four).2 wl) avx16Weights
  let pl ← load128w src (o + (b.start + jx) * 4)
  let ph ← load128w src (o + (b.start + jx) * 4 + 8)
  some (dot16x2 store (shuffle8x2 (pl, ph) avx16Shuffle2) w0)

/-- Two pixels: `acc_2_dot`, `src/avx2/rgba_u16_lb.rs:52-64`, and the weights `:323-335,489-498`. -/
def rgbaAvx16Px2 (src : List ℕ) (w : List ℤ) (b : Bounds) (jx o : ℕ) (store : Reg) : Option Reg := do
  let wl ← loadWeights w jx 2
  let w0 := shuffle8 wl avx16Weights
  let px ← load128w src (o + (b.start + jx) * 4)
  some (add32 store (madd16 (shuffle8 px avx16Shuffle2) w0))

/-- One pixel: `acc_1_dot`, `src/avx2/rgba_u16_lb.rs:38-50`, and the weight `:337-346,500-506`. -/
def rgbaAvx16Px1 (src : List ℕ) (w : List ℤ) (b : Bounds) (jx o : ℕ) (store : Reg) : Option Reg := do
  let weight ← w[jx]?
  let w0 := shuffle8 (set1epi16 weight) avx16Weights
  let px ← load64w src (o + (b.start + jx) * 4)
  some (add32 store (madd16 (shuffle8 px avx16Shuffle1) w0))

/-- `convolve_horizontal_rgba_avx_rows_4_lb_impl::<false>` (`four`) and
`convolve_horizontal_rgba_vnni_u16_row_impl::<false>`, `src/avx2/rgba_u16_lb.rs:169-363,402-514`. -/
def rgbaAvxLb16 (four : Bool) (d : ℕ) (src : List ℕ) (offs : List ℕ) (w : List ℤ) (b : Bounds) :
    Option (List (List ℕ)) := do
  let st := offs.map fun _ =>
    (setr32 [ROUNDING_CONST, ROUNDING_CONST, ROUNDING_CONST, ROUNDING_CONST], setr32 [0, 0, 0, 0])
  let (jx, st) ← rowsLoop 8 8 b.size offs (rgbaAvx16Px8 four src w b) 0 st
  let (jx, st) ← rowsLoop 4 4 b.size offs (rgbaAvx16Px4 four src w b) jx st
  let st := st.map fun s => add32 s.1 s.2
  let (jx, st) ← rowsLoop 2 2 b.size offs (rgbaAvx16Px2 src w b) jx st
  let (_, st) ← rowsLoop 0 1 b.size offs (rgbaAvx16Px1 src w b) jx st
  some (st.map (rgbaLb16Store d))

/-! ### floating point (more than 12 bits), SSE4.1 -/

/-- `_mm_prefer_fma_ps::<FMA>(a, b, c)`, `src/sse/utils.rs:36-48`: `b * c + a`, rounded once with FMA. -/
def preferFma (fma : Bool) (a b c : RegF) : RegF := if fma then fmaddps b c a else addps (mulps b c) a
/-- `_mm_max_ps(a, _mm_setzero_ps())`. -/
def maxps0 (a : RegF) : RegF := a.map fun (q : ℚ) => max q 0
/-- `_mm_cvtepi32_ps(_mm_unpacklo_epi16(v, zeros))`. -/
def cvtLo (v : Reg) : RegF := cvtepi32ps (unpacklo16 v setzero)
/-- `_mm_cvtepi32_ps(_mm_unpackhi_epi16(v, zeros))`. -/
def cvtHi (v : Reg) : RegF := cvtepi32ps (unpackhi16 v setzero)

/-- One row for eight samples, `src/sse/vertical_u16.rs:122-141,177-186`. -/
def fpDot (fma : Bool) (st : RegF × RegF) (row : Reg) (w : RegF) : RegF × RegF :=
  (preferFma fma st.1 (cvtLo row) w, preferFma fma st.2 (cvtHi row) w)

/-- One row for `R` groups of eight samples. -/
def fpStep (fma : Bool) (R : ℕ) (b : Bounds) (src : List ℕ) (stride : ℕ) (weight : List ℚ) (sx j : ℕ)
    (st : List (RegF × RegF)) : Option (List (RegF × RegF)) := do
  let w ← weight[j]?
  ((List.range R).zip st).mapM fun rs => do
    let row ← load128w src (stride * (b.start + j) + sx + 8 * rs.1)
    some (fpDot fma rs.2 row (set1ps w))

/-- `_mm_packus_epi32(min(cvtps(store0), max), min(cvtps(store1), max))`, stored:
`src/sse/vertical_u16.rs:144-153,189-193`. -/
def fpNarrow (d : ℕ) (st : RegF × RegF) : List ℕ :=
  toU16 (packus32 (min32 (cvtpsepi32 st.1) (set1epi32 (2 ^ d - 1)))
    (min32 (cvtpsepi32 st.2) (set1epi32 (2 ^ d - 1))))

/-- A chunk of `8 R` samples, `src/sse/vertical_u16.rs:105-156,163-196`. -/
def fpBlock (fma : Bool) (R d : ℕ) (b : Bounds) (src : List ℕ) (stride : ℕ) (weight : List ℚ) (sx : ℕ) :
    Option (List ℕ) := do
  let st ← forRange 0 (min b.size weight.length) (fpStep fma R b src stride weight sx)
    (List.replicate R (set1ps 0, set1ps 0))
  some (st.flatMap (fpNarrow d))

/-- One row for four samples, `src/sse/vertical_u16.rs:208-331`. -/
def fpStep4 (fma : Bool) (b : Bounds) (src : List ℕ) (stride : ℕ) (weight : List ℚ) (sx j : ℕ) (st : RegF) :
    Option RegF := do
  let w ← weight[j]?
  let row ← load64w src (stride * (b.start + j) + sx)
  some (preferFma fma st (cvtLo row) (set1ps w))

/-- A chunk of four samples, `src/sse/vertical_u16.rs:203-339`. -/
def fpBlock4 (fma : Bool) (d : ℕ) (b : Bounds) (src : List ℕ) (stride : ℕ) (weight : List ℚ) (sx : ℕ) :
    Option (List ℕ) := do
  let step := fpStep4 fma b src stride weight sx
  let st ← unrolled24 (if b.size ≤ 4 then b.size else min b.size weight.length) step step (set1ps 0)
  let v := min32 (cvtpsepi32 st) (set1epi32 (2 ^ d - 1))
  some ((toU16 (packus32 v v)).take 4)

/-- One row for one sample of the scalar tail, `src/sse/vertical_u16.rs:350-409`; `fused` is how `mlaf` was
compiled. -/
def fpStep1 (fused : Bool) (b : Bounds) (src : List ℕ) (stride : ℕ) (weight : List ℚ) (sx j : ℕ) (st : ℚ) :
    Option ℚ := do
  let w ← weight[j]?
  let v ← src[stride * (b.start + j) + sx]?
  some (mlaf F32.rnd fused st (v : ℚ) w)

/-- The scalar tail, `src/sse/vertical_u16.rs:345-412`: `store0.ceil().max(0.).min(max_colors as f32)`. -/
def fpTail (fused : Bool) (d : ℕ) (b : Bounds) (src : List ℕ) (stride : ℕ) (weight : List ℚ) (sx : ℕ) :
    Option (List ℕ) := do
  let step := fpStep1 fused b src stride weight sx
  let st ← unrolled24 (if b.size ≤ 4 then b.size else min b.size weight.length) step step 0
  some [toMixedU16 d st]

/-- `convolve_column_lb_u16_impl`, `src/sse/vertical_u16.rs:83-413`. -/
def sseColumnFp (fma fused : Bool) (d : ℕ) (b : Bounds) (src dst : List ℕ) (stride : ℕ) (weight : List ℚ) :
    Option (List ℕ) := do
  let (off, cx, r) ← chunkLoop 16 (fpBlock fma 2 d b src stride weight) 0 0 dst
  let (off, cx, r) ← chunkLoop 8 (fpBlock fma 1 d b src stride weight) off cx r
  let (off, cx, r) ← chunkLoop 4 (fpBlock4 fma d b src stride weight) off cx r
  let (_, _, r) ← chunkLoop 1 (fpTail fused d b src stride weight) off cx r
  some r

/-- `conv_horiz_rgba_1_u16`, `src/sse/rgba_u16.rs:36-51`. -/
def rgbaFpPx1 (fma : Bool) (src : List ℕ) (w : List ℚ) (b : Bounds) (jx o : ℕ) (store : RegF) :
    Option RegF := do
  let w0 ← w[jx]?
  let px ← load64w src (o + (b.start + jx) * 4)
  some (preferFma fma store (cvtLo px) (set1ps w0))

/-- `conv_horiz_rgba_2_u16`, `src/sse/rgba_u16.rs:53-76`: `_mm_unpacklo_epi16` both times, as in the code. -/
def rgbaFpPx2 (fma : Bool) (src : List ℕ) (w : List ℚ) (b : Bounds) (jx o : ℕ) (store : RegF) :
    Option RegF := do
  let w0 ← w[jx]?
  let w1 ← w[jx + 1]?
  let px ← load128w src (o + (b.start + jx) * 4)
  let acc := preferFma fma store (cvtLo px) (set1ps w0)
  some (preferFma fma acc (cvtLo px) (set1ps w1))

/-- `conv_horiz_rgba_4_u16`, `src/sse/rgba_u16.rs:78-114`: `_mm_unpackhi_epi16(rgba_pixel0)` for `w1` and for
`w0`, as in the code. -/
def rgbaFpPx4 (fma : Bool) (src : List ℕ) (w : List ℚ) (b : Bounds) (jx o : ℕ) (store : RegF) :
    Option RegF := do
  let w0 ← w[jx]?
  let w1 ← w[jx + 1]?
  let w2 ← w[jx + 2]?
  let w3 ← w[jx + 3]?
  let px0 ← load128w src (o + (b.start + jx) * 4)
  let px1 ← load128w src (o + (b.start + jx) * 4 + 8)
  let acc := preferFma fma store (cvtHi px1) (set1ps w3)
  let acc := preferFma fma acc (cvtLo px1) (set1ps w2)
  let acc := preferFma fma acc (cvtHi px0) (set1ps w1)
  some (preferFma fma acc (cvtHi px0) (set1ps w0))

/-- Four pixels in the order 3, 2, 1, 0: each half of `conv_horiz_rgba_8_u16`,
`src/sse/rgba_u16.rs:134-175`. -/
def rgbaFpFour (fma : Bool) (px0 px1 : Reg) (w0 w1 w2 w3 : ℚ) (store : RegF) : RegF :=
  let acc := preferFma fma store (cvtHi px1) (set1ps w3)
  let acc := preferFma fma acc (cvtLo px1) (set1ps w2)
  let acc := preferFma fma acc (cvtHi px0) (set1ps w1)
  preferFma fma acc (cvtLo px0) (set1ps w0)

/-- `conv_horiz_rgba_8_u16`, `src/sse/rgba_u16.rs:116-176`. -/
def rgbaFpPx8 (fma : Bool) (src : List ℕ) (w : List ℚ) (b : Bounds) (jx o : ℕ) (store : RegF) :
    Option RegF := do
  let w0 ← w[jx]?
  let w1 ← w[jx + 1]?
  let w2 ← w[jx + 2]?
  let w3 ← w[jx + 3]?
  let w4 ← w[jx + 4]?
  let w5 ← w[jx + 5]?
  let w6 ← w[jx + 6]?
  let w7 ← w[jx + 7]?
  let px0 ← load128w src (o + (b.start + jx) * 4)
  let px1 ← load128w src (o + (b.start + jx) * 4 + 8)
  let px2 ← load128w src (o + (b.start + jx) * 4 + 16)
  let px3 ← load128w src (o + (b.start + jx) * 4 + 24)
  some (rgbaFpFour fma px2 px3 w4 w5 w6 w7 (rgbaFpFour fma px0 px1 w0 w1 w2 w3 store))

/-- The end of a pixel: `max_ps(_, 0)`, `cvtps`, `min`, `packus`, `_mm_storeu_si64`;
`src/sse/rgba_u16.rs:352-377,487-493`. -/
def rgbaFpStore (d : ℕ) (store : RegF) : List ℕ :=
  let v := min32 (cvtpsepi32 (maxps0 store)) (set1epi32 (2 ^ d - 1))
  (toU16 (packus32 v v)).take 4

/-- `convolve_horizontal_rgba_sse_rows_4_u16_impl` and `convolve_horizontal_rgba_sse_u16_row_impl`,
`src/sse/rgba_u16.rs:250-379,419-495`. -/
def rgbaSseFp (fma : Bool) (d : ℕ) (src : List ℕ) (offs : List ℕ) (w : List ℚ) (b : Bounds) :
    Option (List (List ℕ)) := do
  let st := offs.map fun _ => set1ps 0
  let (jx, st) ← rowsLoop 8 8 b.size offs (rgbaFpPx8 fma src w b) 0 st
  let (jx, st) ← rowsLoop 4 4 b.size offs (rgbaFpPx4 fma src w b) jx st
  let (jx, st) ← rowsLoop 2 2 b.size offs (rgbaFpPx2 fma src w b) jx st
  let (_, st) ← rowsLoop 0 1 b.size offs (rgbaFpPx1 fma src w b) jx st
  some (st.map (rgbaFpStore d))

/-! ### selection -/

/-- `u16::handle_fixed_column` on x86, `src/handler_provider.rs:604-650`. -/
def fixedColumnX86 (cpu : Cpu) (d : ℕ) (b : Bounds) (src dst : List ℕ) (stride : ℕ) (weight : List ℤ) :
    Option (List ℕ) :=
  if cpu.avx2 then avxColumnLb d b src dst stride weight
  else if cpu.sse41 then sseColumnLb d b src dst stride weight
  else columnFixed (2 ^ d - 1) b src dst stride weight

/-- `u16::handle_fixed_row_4` on x86, `src/handler_provider.rs:408-460`. -/
def fixedRows4X86 (cpu : Cpu) (N d : ℕ) (src : List ℕ) (srcStride : ℕ) (dst : List ℕ) (dstStride : ℕ)
    (fw : FilterWeights ℤ) : Option (List ℕ) :=
  if N = 4 ∧ cpu.avx2 then simdRows4 N (rgbaAvxLb16 true d src) srcStride dst dstStride fw
  else if N = 4 ∧ cpu.sse41 then simdRows4 N (rgbaSseLb16 d src) srcStride dst dstStride fw
  else rows4Fixed N (2 ^ d - 1) src srcStride dst dstStride fw

/-- `u16::handle_fixed_row` on x86, `src/handler_provider.rs:518-546`. -/
def fixedRowX86 (cpu : Cpu) (N d : ℕ) (src dst : List ℕ) (fw : FilterWeights ℤ) : Option (List ℕ) :=
  if N = 4 ∧ cpu.avx2 then simdRow N (rgbaAvxLb16 false d src) dst fw
  else if N = 4 ∧ cpu.sse41 then simdRow N (rgbaSseLb16 d src) dst fw
  else rowFixed N (2 ^ d - 1) src dst fw

/-- `u16::handle_floating_column` on x86, `src/handler_provider.rs:134-155`. -/
def floatColumnX86 (cpu : Cpu) (fma fused : Bool) (d : ℕ) (b : Bounds) (src dst : List ℕ) (stride : ℕ)
    (weight : List ℚ) : Option (List ℕ) :=
  if cpu.sse41 then sseColumnFp fma fused d b src dst stride weight
  else columnFloat (u16Ops F32.rnd fused d) b src dst stride weight

/-- `u16::handle_row` on x86, `src/handler_provider.rs:200-217`. -/
def floatRowX86 (cpu : Cpu) (fma fused : Bool) (N d : ℕ) (src dst : List ℕ) (fw : FilterWeights ℚ) :
    Option (List ℕ) :=
  if N = 4 ∧ cpu.sse41 then simdRow N (rgbaSseFp fma d src) dst fw
  else rowFloat (u16Ops F32.rnd fused d) N src dst fw

/-- `u16::handle_row_4` on x86, `src/handler_provider.rs:238-266`: no `return` after the SSE4.1 handler, so
the scalar handler runs on the same rows afterwards. -/
def floatRows4X86 (cpu : Cpu) (fma fused : Bool) (N d : ℕ) (src : List ℕ) (srcStride : ℕ) (dst : List ℕ)
    (dstStride : ℕ) (fw : FilterWeights ℚ) : Option (List ℕ) := do
  let dst ← if N = 4 ∧ cpu.sse41 then simdRows4 N (rgbaSseFp fma d src) srcStride dst dstStride fw
    else some dst
  rows4Float (u16Ops F32.rnd fused d) N src srcStride dst dstStride fw

/-- u16 images on x86: `convolve_vertical_dispatch_u16`, `convolve_horizontal_dispatch_u16`
(`src/dispatch_group_u16.rs:48-427`) with the handlers above. `fma` is
`is_x86_feature_detected!("fma")`, `fused` how `mlaf` was compiled. -/
def formatU16X86 (cpu : Cpu) (fma fused : Bool) (N : ℕ) : Format ℕ where
  default := 0
  shouldHaveBitDepth := true
  vertical := fun src dst fw =>
    if 12 < dst.bitDepth then
      verticalDispatch N src dst fw.bounds fw.alignedSize fw.weights
        (fun b s d ss w => floatColumnX86 cpu fma fused dst.bitDepth b s d ss w)
    else
      let q := numericalApproximation F32.rnd fw
      verticalDispatch N src dst q.bounds q.alignedSize q.weights
        (fun b s d ss w => fixedColumnX86 cpu dst.bitDepth b s d ss w)
  horizontal := fun src dst fw =>
    if 12 < dst.bitDepth then
      horizontalDispatch N src dst
        (some fun s ss d ds => floatRows4X86 cpu fma fused N dst.bitDepth s ss d ds fw)
        (fun s d => floatRowX86 cpu fma fused N dst.bitDepth s d fw)
    else
      let q := numericalApproximation F32.rnd fw
      horizontalDispatch N src dst
        (some fun s ss d ds => fixedRows4X86 cpu N dst.bitDepth s ss d ds q)
        (fun s d => fixedRowX86 cpu N dst.bitDepth s d q)

end PicScale
