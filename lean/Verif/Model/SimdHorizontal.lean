import Verif.Model.SimdVertical
import Verif.Model.Pass

/-!
Model of the x86 horizontal 8-bit handlers: `src/sse/rgba_u8.rs`, `src/sse/rgba_u8_lb.rs`,
`src/avx2/rgba_u8_lb.rs`, `src/sse/rgb_u8.rs`, `src/avx2/rgb_u8.rs` (without `nightly_avx512`, so
`HAS_DOT = false`), `src/sse/plane_u8.rs`, `src/sse/plane_u8_hrs.rs`, `src/sse/cbcr8_hrs.rs`.

Every handler exists as a four-row and a one-row function with the same loops. The model has one
function per handler, over the list `offs` of the row offsets (`[0]`, or `[0, s, 2s, 3s]` for
`src0 … src3`), with one accumulator per row: inside an iteration the rows are processed in order
and never mix. Loading the weights of an iteration once for all rows or once per row is the same,
as loads have no effect.

256-bit registers are (low half, high half) as in `Model/SimdVertical.lean`.
-/

namespace PicScale

/-- One iteration of a loop body for all rows. -/
def rowsStep {σ : Type} (offs : List ℕ) (f : ℕ → σ → Option σ) (st : List σ) : Option (List σ) :=
  (offs.zip st).mapM fun os => f os.1 os.2

/-- `while jx + margin < bounds.size { for every row: acc = f(jx, row, acc); jx += step; }`. -/
def rowsLoop {σ : Type} (margin step size : ℕ) (offs : List ℕ) (f : ℕ → ℕ → σ → Option σ)
    (jx : ℕ) (st : List σ) : Option (ℕ × List σ) :=
  whileAcc margin step size (fun jx st => rowsStep offs (f jx) st) size jx st

/-- The loop over the output pixels of one row with a handler `h offs w b` (the `one` functions). -/
def simdRow {S W : Type} (N : ℕ) (h : List ℕ → List W → Bounds → Option (List (List S))) (dst : List S)
    (fw : FilterWeights W) : Option (List S) :=
  rowPass N (fun w b => do
    let l ← h [0] w b
    l[0]?) (fun v => v) dst fw

/-- The loop over the output pixels of four rows (the `rows_4` functions). -/
def simdRows4 {S W : Type} (N : ℕ) (h : List ℕ → List W → Bounds → Option (List (List S))) (srcStride : ℕ)
    (dst : List S) (dstStride : ℕ) (fw : FilterWeights W) : Option (List S) :=
  rows4Pass N (fun w b => do
    let l ← h [0, srcStride, srcStride * 2, srcStride * 3] w b
    let r0 ← l[0]?
    let r1 ← l[1]?
    let r2 ← l[2]?
    let r3 ← l[3]?
    some (r0, r1, r2, r3)) (fun v => v) dst dstStride fw

/-! ### `src/sse/rgba_u8.rs` -/

/-- `shuffle_lo`, `src/sse/rgba_u8.rs:77-84` and `:263-270`. -/
def rgbaShuffleLo : List ℤ := [0, -1, 4, -1, 1, -1, 5, -1, 2, -1, 6, -1, 3, -1, 7, -1]
/-- `shuffle_hi`, `src/sse/rgba_u8.rs:87-94` and `:273-280`. -/
def rgbaShuffleHi : List ℤ := [8, -1, 12, -1, 9, -1, 13, -1, 10, -1, 14, -1, 11, -1, 15, -1]

/-- Four pixels, `src/sse/rgba_u8.rs:131-172,297-317`. -/
def rgbaSse4 (src : List ℕ) (w : List ℤ) (b : Bounds) (jx o : ℕ) (store : Reg) : Option Reg := do
  let weights ← loadWeights w jx 4
  let weight01 := shuffle32 [0, 0, 0, 0] weights
  let weight23 := shuffle32 [1, 1, 1, 1] weights
  let px ← load128 src (o + (b.start + jx) * 4)
  let hi := shuffle8 px rgbaShuffleHi
  let lo := shuffle8 px rgbaShuffleLo
  let store := add32 store (madd16 lo weight01)
  some (add32 store (madd16 hi weight23))

/-- Two pixels, `src/sse/rgba_u8.rs:175-203,319-332`. -/
def rgbaSse2 (src : List ℕ) (w : List ℤ) (b : Bounds) (jx o : ℕ) (store : Reg) : Option Reg := do
  let ws ← weightBytes w jx 2
  let px ← load64 src (o + (b.start + jx) * 4)
  some (add32 store (madd16 (shuffle8 px rgbaShuffleLo) (set1bytes32 ws)))

/-- One pixel: `convolve_horizontal_parts_one_rgba_sse`, `src/sse/rgba_u8.rs:38-54`. -/
def rgbaSse1 (src : List ℕ) (w : List ℤ) (b : Bounds) (jx o : ℕ) (store : Reg) : Option Reg := do
  let weight ← w[jx]?
  let px ← load32 src (o + (b.start + jx) * 4)
  let lo := unpacklo8 px setzero
  some (add32 store (madd16 (cvtepi16epi32 lo) (set1epi32 weight)))

/-- `compress_i32` (`src/sse/u8_utils.rs:38-43`), then `_mm_packus_epi16` of the result with itself. -/
def compressI32 (store : Reg) : Reg :=
  let s := srai32 PRECISION store
  let c := packus32 s s
  packus16 c c

/-- `convolve_horizontal_rgba_sse_rows_4_impl` and `convolve_horizontal_rgba_sse_rows_one_impl`,
`src/sse/rgba_u8.rs:68-243,255-344`. -/
def rgbaSse (src : List ℕ) (offs : List ℕ) (w : List ℤ) (b : Bounds) :
    Option (List (List ℕ)) := do
  let st := offs.map fun _ => set1epi32 ROUNDING_CONST
  let (jx, st) ← rowsLoop 4 4 b.size offs (rgbaSse4 src w b) 0 st
  let (jx, st) ← rowsLoop 2 2 b.size offs (rgbaSse2 src w b) jx st
  let (_, st) ← rowsLoop 0 1 b.size offs (rgbaSse1 src w b) jx st
  some (st.map fun s => (compressI32 s).take 4)

/-! ### `src/sse/rgba_u8_lb.rs` -/

/-- `_mm_srli_epi16::<2>(_mm_unpacklo_epi8(v, v))`. -/
def dupLo (v : Reg) : Reg := srli16 2 (unpacklo8 v v)
/-- `_mm_srli_epi16::<2>(_mm_unpackhi_epi8(v, v))`. -/
def dupHi (v : Reg) : Reg := srli16 2 (unpackhi8 v v)

/-- `shuffle_weights`, `src/sse/rgba_u8_lb.rs:128`: two weights, four times each. -/
def lbShuffleWeights : List ℤ := [0, 1, 0, 1, 0, 1, 0, 1, 2, 3, 2, 3, 2, 3, 2, 3]

/-- `vld = _mm_setr_epi16(ROUNDING ×4, 0 ×4)`, `src/sse/rgba_u8_lb.rs:126`. -/
def lbInit : Reg := setr16 [LP_ROUNDING, LP_ROUNDING, LP_ROUNDING, LP_ROUNDING, 0, 0, 0, 0]

/-- `hdot4`, `src/sse/rgba_u8_lb.rs:67-86`. -/
def lbHdot4 (store v0 v1 w01 w23 w45 w67 : Reg) : Reg :=
  let p := mulhrs16 (dupLo v0) w01
  let p := add16 p (mulhrs16 (dupHi v0) w23)
  let p := add16 p (mulhrs16 (dupLo v1) w45)
  let p := add16 p (mulhrs16 (dupHi v1) w67)
  add16 store p

/-- `hdot2`, `src/sse/rgba_u8_lb.rs:88-95`. -/
def lbHdot2 (store v w01 w23 : Reg) : Reg :=
  let p := mulhrs16 (dupLo v) w01
  let p := add16 p (mulhrs16 (dupHi v) w23)
  add16 store p

/-- `hdot`, `src/sse/rgba_u8_lb.rs:97-101` (and `src/avx2/rgba_u8_lb.rs:81-85`). -/
def lbHdot (store v w01 : Reg) : Reg := add16 store (mulhrs16 (dupLo v) w01)

/-- Eight pixels, `src/sse/rgba_u8_lb.rs:164-247,388-430`. -/
def rgbaLb8 (src : List ℕ) (w : List ℤ) (b : Bounds) (jx o : ℕ) (store : Reg) : Option Reg := do
  let w01 ← loadWeights w jx 2
  let w23 ← loadWeights w (jx + 2) 2
  let w45 ← loadWeights w (jx + 4) 2
  let w67 ← loadWeights w (jx + 6) 2
  let v0 ← load128 src (o + (b.start + jx) * 4)
  let v1 ← load128 src (o + (b.start + jx) * 4 + 16)
  some (lbHdot4 store v0 v1 (shuffle8 w01 lbShuffleWeights) (shuffle8 w23 lbShuffleWeights)
    (shuffle8 w45 lbShuffleWeights) (shuffle8 w67 lbShuffleWeights))

/-- Four pixels, `src/sse/rgba_u8_lb.rs:250-280,432-450`. -/
def rgbaLb4 (src : List ℕ) (w : List ℤ) (b : Bounds) (jx o : ℕ) (store : Reg) : Option Reg := do
  let w01 ← loadWeights w jx 2
  let w23 ← loadWeights w (jx + 2) 2
  let v ← load128 src (o + (b.start + jx) * 4)
  some (lbHdot2 store v (shuffle8 w01 lbShuffleWeights) (shuffle8 w23 lbShuffleWeights))

/-- Two pixels, `src/sse/rgba_u8_lb.rs:282-305,452-466`. -/
def rgbaLb2 (src : List ℕ) (w : List ℤ) (b : Bounds) (jx o : ℕ) (store : Reg) : Option Reg := do
  let w01 ← loadWeights w jx 2
  let v ← load64 src (o + (b.start + jx) * 4)
  some (lbHdot store v (shuffle8 w01 lbShuffleWeights))

/-- One pixel: `convolve_horizontal_parts_one_rgba_sse`, `src/sse/rgba_u8_lb.rs:37-52` (and
`src/avx2/rgba_u8_lb.rs:37-52`). -/
def rgbaLb1 (src : List ℕ) (w : List ℤ) (b : Bounds) (jx o : ℕ) (store : Reg) : Option Reg := do
  let weight ← w[jx]?
  let px ← load32 src (o + (b.start + jx) * 4)
  some (add16 store (mulhrs16 (dupLo px) (set1epi16 weight)))

/-- The end of an output pixel: `_mm_add_hi_lo_epi16` (`src/sse/rgba_u8_lb.rs:103-107`), shift by 6,
`_mm_packus_epi16`, `_mm_storeu_si32`. -/
def lbFinish (store : Reg) : List ℕ :=
  let s := add16 store (unpackhi64 store store)
  let s := srai16 6 s
  (packus16 s s).take 4

/-- `convolve_horizontal_rgba_sse_rows_4_impl` and `convolve_horizontal_rgba_sse_rows_one_impl`,
`src/sse/rgba_u8_lb.rs:109-352,364-480`. -/
def rgbaSseLb (src : List ℕ) (offs : List ℕ) (w : List ℤ) (b : Bounds) :
    Option (List (List ℕ)) := do
  let st := offs.map fun _ => lbInit
  let (jx, st) ← rowsLoop 8 8 b.size offs (rgbaLb8 src w b) 0 st
  let (jx, st) ← rowsLoop 4 4 b.size offs (rgbaLb4 src w b) jx st
  let (jx, st) ← rowsLoop 2 2 b.size offs (rgbaLb2 src w b) jx st
  let (_, st) ← rowsLoop 0 1 b.size offs (rgbaLb1 src w b) jx st
  some (st.map lbFinish)

/-! ### `src/avx2/rgba_u8_lb.rs` -/

/-- Eight pixels, `src/avx2/rgba_u8_lb.rs:151-188,344-374`; `hdot4` is `:65-72`. The alpha lane of
pixel 4 gets `w5` (`:164`, `:358`), as in the code. -/
def rgbaAvxLb8 (src : List ℕ) (w : List ℤ) (b : Bounds) (jx o : ℕ) (store : Reg × Reg) :
    Option (Reg × Reg) := do
  let w0 ← w[jx]?
  let w1 ← w[jx + 1]?
  let w2 ← w[jx + 2]?
  let w3 ← w[jx + 3]?
  let w4 ← w[jx + 4]?
  let w5 ← w[jx + 5]?
  let w6 ← w[jx + 6]?
  let w7 ← w[jx + 7]?
  let weights0 := (setr16 [w0, w0, w0, w0, w1, w1, w1, w1], setr16 [w4, w4, w4, w5, w5, w5, w5, w5])
  let weights1 := (setr16 [w2, w2, w2, w2, w3, w3, w3, w3], setr16 [w6, w6, w6, w6, w7, w7, w7, w7])
  let vl ← load128 src (o + (b.start + jx) * 4)
  let vh ← load128 src (o + (b.start + jx) * 4 + 16)
  some (lbHdot2 store.1 vl weights0.1 weights1.1, lbHdot2 store.2 vh weights0.2 weights1.2)

/-- Four pixels, `src/avx2/rgba_u8_lb.rs:190-230,376-399`; `hdot2` is `:74-79`. -/
def rgbaAvxLb4 (src : List ℕ) (w : List ℤ) (b : Bounds) (jx o : ℕ) (store : Reg × Reg) :
    Option (Reg × Reg) := do
  let w0 ← w[jx]?
  let w1 ← w[jx + 1]?
  let w2 ← w[jx + 2]?
  let w3 ← w[jx + 3]?
  let weights := (setr16 [w0, w0, w0, w0, w1, w1, w1, w1], setr16 [w2, w2, w2, w2, w3, w3, w3, w3])
  let v ← load128 src (o + (b.start + jx) * 4)
  let v := permute50 v
  some (lbHdot store.1 v.1 weights.1, lbHdot store.2 v.2 weights.2)

/-- Two pixels, `src/avx2/rgba_u8_lb.rs:249-274,406-421`. -/
def rgbaAvxLb2 (src : List ℕ) (w : List ℤ) (b : Bounds) (jx o : ℕ) (store : Reg) : Option Reg := do
  let ws ← weightBytes w jx 2
  let v ← load64 src (o + (b.start + jx) * 4)
  some (lbHdot store v (shuffle8 (set1bytes32 ws) lbShuffleWeights))

/-- `convolve_horizontal_rgba_avx_rows_4_impl` and `convolve_horizontal_rgba_avx_rows_one_impl`,
`src/avx2/rgba_u8_lb.rs:93-317,330-448`. -/
def rgbaAvxLb (src : List ℕ) (offs : List ℕ) (w : List ℤ) (b : Bounds) :
    Option (List (List ℕ)) := do
  let st := offs.map fun _ => (lbInit, setzero)
  let (jx, st) ← rowsLoop 8 8 b.size offs (rgbaAvxLb8 src w b) 0 st
  let (jx, st) ← rowsLoop 4 4 b.size offs (rgbaAvxLb4 src w b) jx st
  let st := st.map fun s => add16 s.1 s.2
  let (jx, st) ← rowsLoop 2 2 b.size offs (rgbaAvxLb2 src w b) jx st
  let (_, st) ← rowsLoop 0 1 b.size offs (rgbaLb1 src w b) jx st
  some (st.map lbFinish)

/-! ### `src/sse/rgb_u8.rs` -/

/-- `load_rgb_x2`, `src/sse/rgb_u8.rs:50-59`, `src/avx2/rgb_u8.rs:95-104`. -/
def loadRgbX2 (src : List ℕ) (off : ℕ) : Option Reg := do
  let a ← loadBytes src off 4
  let c ← loadBytes src (off + 4) 2
  some (a ++ c ++ List.replicate 10 0)

/-- `load_rgb_x4`, `src/sse/rgb_u8.rs:61-69`, `src/avx2/rgb_u8.rs:106-114`. -/
def loadRgbX4 (src : List ℕ) (off : ℕ) : Option Reg := do
  let a ← loadBytes src off 8
  let c ← loadBytes src (off + 8) 4
  some (a ++ c ++ List.replicate 4 0)

/-- `shuffle_lo`, `src/sse/rgb_u8.rs:82-89,258`, `src/avx2/rgb_u8.rs:179,494`. -/
def rgbShuffleLo : List ℤ := [0, -1, 3, -1, 1, -1, 4, -1, 2, -1, 5, -1, -1, -1, -1, -1]
/-- `shuffle_hi`, `src/sse/rgb_u8.rs:92-99,260`. -/
def rgbShuffleHi : List ℤ := [6, -1, 9, -1, 7, -1, 10, -1, 8, -1, 11, -1, -1, -1, -1, -1]

/-- Four pixels, `src/sse/rgb_u8.rs:136-172,275-296`. -/
def rgbSse4 (src : List ℕ) (w : List ℤ) (b : Bounds) (jx o : ℕ) (store : Reg) : Option Reg := do
  let weights ← loadWeights w jx 4
  let weight01 := shuffle32 [0, 0, 0, 0] weights
  let weight23 := shuffle32 [1, 1, 1, 1] weights
  let px ← loadRgbX4 src (o + (b.start + jx) * 3)
  let hi := shuffle8 px rgbShuffleHi
  let lo := shuffle8 px rgbShuffleLo
  let store := add32 store (madd16 lo weight01)
  some (add32 store (madd16 hi weight23))

/-- Two pixels, `src/sse/rgb_u8.rs:174-196,298-306` (and `src/avx2/rgb_u8.rs:357-378,574-582`). -/
def rgbSse2 (src : List ℕ) (w : List ℤ) (b : Bounds) (jx o : ℕ) (store : Reg) : Option Reg := do
  let ws ← weightBytes w jx 2
  let px ← loadRgbX2 src (o + (b.start + jx) * 3)
  some (add32 store (madd16 (shuffle8 px rgbShuffleLo) (set1bytes32 ws)))

/-- One pixel: `convolve_horizontal_parts_one_sse_rgb`, `src/sse/u8_utils.rs:45-61`. -/
def rgbSse1 (src : List ℕ) (w : List ℤ) (b : Bounds) (jx o : ℕ) (store : Reg) : Option Reg := do
  let weight ← w[jx]?
  let base ← load16 src (o + (b.start + jx) * 3)
  let v2 ← loadBytes src (o + (b.start + jx) * 3 + 2) 1
  let v2 ← v2[0]?
  let lo := unpacklo8 (insert8at2 base v2) setzero
  some (add32 store (madd16 (unpacklo16 lo setzero) (set1epi32 weight)))

/-- `convolve_horizontal_rgb_sse_rows_4_impl` and `convolve_horizontal_rgb_sse_row_one_impl`,
`src/sse/rgb_u8.rs:71-243,247-328`. -/
def rgbSse (src : List ℕ) (offs : List ℕ) (w : List ℤ) (b : Bounds) : Option (List (List ℕ)) := do
  let st := offs.map fun _ => set1epi32 ROUNDING_CONST
  let (jx, st) ← rowsLoop 4 4 b.size offs (rgbSse4 src w b) 0 st
  let (jx, st) ← rowsLoop 2 2 b.size offs (rgbSse2 src w b) jx st
  let (_, st) ← rowsLoop 0 1 b.size offs (rgbSse1 src w b) jx st
  some (st.map fun s => (compressI32 s).take 3)

/-! ### `src/avx2/rgb_u8.rs` -/

/-- `shuffle_weights` per half, `src/avx2/rgb_u8.rs:183-186,499-502`. -/
def rgbShuffleWeights : List ℤ := [0, 1, 2, 3, 0, 1, 2, 3, 0, 1, 2, 3, -1, -1, -1, -1]

/-- `_mm256_shuffle_epi8` with the same mask in both halves. -/
def shuffle8x2 (v : Reg × Reg) (mask : List ℤ) : Reg × Reg := (shuffle8 v.1 mask, shuffle8 v.2 mask)

/-- `_mm256_dot16_avx_epi32::<false>`, `src/avx2/utils.rs:354-371`. -/
def dot16x2 (a b c : Reg × Reg) : Reg × Reg :=
  (add32 a.1 (madd16 b.1 c.1), add32 a.2 (madd16 b.2 c.2))

/-- Eight pixels, `src/avx2/rgb_u8.rs:257-297,529-557`, with `load_distr_x8_rgb`, `make_first_4` and
`make_second_4` (`:127-167`). -/
def rgbAvx8 (src : List ℕ) (w : List ℤ) (b : Bounds) (jx o : ℕ) (store : Reg × Reg) :
    Option (Reg × Reg) := do
  let full ← loadWeights w jx 8
  let w0 := shuffle8x2 (shuffle32 [0, 0, 0, 0] full, shuffle32 [1, 1, 1, 1] full) rgbShuffleWeights
  let w1 := shuffle8x2 (shuffle32 [2, 2, 2, 2] full, shuffle32 [3, 3, 3, 3] full) rgbShuffleWeights
  let lo ← load128 src (o + (b.start + jx) * 3)
  let hi ← load64 src (o + (b.start + jx) * 3 + 16)
  let first4 := shuffle8x2 (lo, alignr 6 lo lo) rgbShuffleLo
  let second4 := shuffle8x2 (alignr 12 hi lo, alignr 2 hi hi) rgbShuffleLo
  some (dot16x2 (dot16x2 store first4 w0) second4 w1)

/-- Four pixels, `src/avx2/rgb_u8.rs:299-327,559-575`, with `load_distr_x4_rgb` (`:116-126`). -/
def rgbAvx4 (src : List ℕ) (w : List ℤ) (b : Bounds) (jx o : ℕ) (store : Reg × Reg) :
    Option (Reg × Reg) := do
  let ws ← loadWeights w jx 4
  let weights := shuffle8x2 (shuffle32 [0, 0, 0, 0] ws, shuffle32 [1, 1, 1, 1] ws) rgbShuffleWeights
  let px ← loadRgbX4 src (o + (b.start + jx) * 3)
  let px := shuffle8x2 (px, alignr 6 px px) rgbShuffleLo
  some (dot16x2 store px weights)

/-- One pixel: `add_one_weight`, `src/avx2/rgb_u8.rs:466-484`. The first two channels are read from
the beginning of the row (`_mm_loadu_si16(src.as_ptr())`, `:474`), as in the code. -/
def rgbAvx1 (src : List ℕ) (w : List ℤ) (b : Bounds) (jx o : ℕ) (store : Reg) : Option Reg := do
  let weight ← w[jx]?
  let base ← load16 src o
  let v2 ← loadBytes src (o + (b.start + jx) * 3 + 2) 1
  let v2 ← v2[0]?
  let lo := unpacklo8 (insert8at2 base v2) setzero
  some (add32 store (madd16 (unpacklo16 lo setzero) (set1epi32 weight)))

/-- The `bounds.size > 4` part, `src/avx2/rgb_u8.rs:212-355,515-572`; the result is 128 bits wide. -/
def rgbAvxWide (src : List ℕ) (offs : List ℕ) (w : List ℤ) (b : Bounds) : Option (ℕ × List Reg) :=
  if b.size > 4 then do
    let st := offs.map fun _ =>
      (setr32 [ROUNDING_CONST, ROUNDING_CONST, ROUNDING_CONST, 0], setzero)
    let (jx, st) ← rowsLoop 8 8 b.size offs (rgbAvx8 src w b) 0 st
    let (jx, st) ← rowsLoop 4 4 b.size offs (rgbAvx4 src w b) jx st
    some (jx, st.map fun s => add32 s.1 s.2)
  else some (0, offs.map fun _ => set1epi32 ROUNDING_CONST)

/-- `convolve_horizontal_rgb_avx_rows_4_impl` and `convolve_horizontal_rgb_avx_row_one_impl`,
`src/avx2/rgb_u8.rs:169-431,486-612`. -/
def rgbAvx (src : List ℕ) (offs : List ℕ) (w : List ℤ) (b : Bounds) : Option (List (List ℕ)) := do
  let (jx, st) ← rgbAvxWide src offs w b
  let (jx, st) ← rowsLoop 2 2 b.size offs (rgbSse2 src w b) jx st
  let (_, st) ← rowsLoop 0 1 b.size offs (rgbAvx1 src w b) jx st
  some (st.map fun s => (compressI32 s).take 3)

/-! ### `src/sse/plane_u8.rs` -/

/-- Eight samples, `s_accumulate_8_horiz`, `src/sse/plane_u8.rs:39-49,137-160,249-262`. -/
def planeSse8 (src : List ℕ) (w : List ℤ) (b : Bounds) (jx o : ℕ) (store : Reg) : Option Reg := do
  let ws ← loadWeights w jx 8
  let px ← load64 src (o + (b.start + jx))
  let px16 := unpacklo8 px setzero
  let store := add32 store (madd16 (unpacklo16 px16 setzero) (unpacklo16 ws setzero))
  some (add32 store (madd16 (unpackhi16 px16 setzero) (unpackhi16 ws setzero)))

/-- Four samples, `s_accumulate_4_horiz`, `src/sse/plane_u8.rs:51-60,162-180,264-273`. -/
def planeSse4 (src : List ℕ) (w : List ℤ) (b : Bounds) (jx o : ℕ) (store : Reg) : Option Reg := do
  let ws ← loadWeights w jx 4
  let px ← load32 src (o + (b.start + jx))
  some (add32 store (madd16 (unpacklo16 (unpacklo8 px setzero) setzero) (cvtepi16epi32 ws)))

/-- One sample, `s_accumulate_1_horiz`, `src/sse/plane_u8.rs:62-67,182-200,275-280`. -/
def planeSse1 (src : List ℕ) (w : List ℤ) (b : Bounds) (jx o : ℕ) (store : Reg) : Option Reg := do
  let weight ← w[jx]?
  let v ← loadBytes src (o + (b.start + jx)) 1
  let v0 ← v[0]?
  some (add32 store (madd16 (setr32 [((v0 : ℕ) : ℤ), 0, 0, 0]) (setr32 [weight, 0, 0, 0])))

/-- `_mm_hsum_reduce_epi32::<PRECISION>`, `src/sse/plane_u8.rs:88-99`
(`shuffle(1, 0, 3, 2)` selects 2, 3, 0, 1). -/
def planeFinish (x : Reg) : List ℕ :=
  let hi64 := shuffle32 [2, 3, 0, 1] x
  let sum64 := add32 hi64 x
  let hi32 := shufflelo16 [2, 3, 0, 1] sum64
  let sum32 := srai32 PRECISION (add32 sum64 hi32)
  let v0 := packus32 sum32 sum32
  (packus16 v0 v0).take 1

/-- `convolve_horizontal_plane_sse_rows_4_u8_impl` and `convolve_horizontal_plane_sse_row_impl`,
`src/sse/plane_u8.rs:101-217,230-283`. -/
def planeSse (src : List ℕ) (offs : List ℕ) (w : List ℤ) (b : Bounds) :
    Option (List (List ℕ)) := do
  let st := offs.map fun _ => setr32 [ROUNDING_CONST, 0, 0, 0]
  let (jx, st) ← rowsLoop 8 8 b.size offs (planeSse8 src w b) 0 st
  let (jx, st) ← rowsLoop 4 4 b.size offs (planeSse4 src w b) jx st
  let (_, st) ← rowsLoop 0 1 b.size offs (planeSse1 src w b) jx st
  some (st.map planeFinish)

/-! ### `src/sse/plane_u8_hrs.rs` -/

/-- Sixteen samples, `s_accumulate_16_horiz`, `src/sse/plane_u8_hrs.rs:81-93,148-167,263-275`. -/
def planeHrs16 (src : List ℕ) (w : List ℤ) (b : Bounds) (jx o : ℕ) (store : Reg) : Option Reg := do
  let w0 ← loadWeights w jx 8
  let w1 ← loadWeights w (jx + 8) 8
  let px ← load128 src (o + (b.start + jx))
  let v0 := add16 store (mulhrs16 (dupLo px) w0)
  some (add16 v0 (mulhrs16 (dupHi px) w1))

/-- Eight samples, `s_accumulate_8_horiz`, `src/sse/plane_u8_hrs.rs:73-79,169-187,277-286`. -/
def planeHrs8 (src : List ℕ) (w : List ℤ) (b : Bounds) (jx o : ℕ) (store : Reg) : Option Reg := do
  let ws ← loadWeights w jx 8
  let px ← load64 src (o + (b.start + jx))
  some (add16 store (mulhrs16 (dupLo px) ws))

/-- Four samples, `s_accumulate_4_horiz`, `src/sse/plane_u8_hrs.rs:65-71,189-207,288-297`. -/
def planeHrs4 (src : List ℕ) (w : List ℤ) (b : Bounds) (jx o : ℕ) (store : Reg) : Option Reg := do
  let ws ← loadWeights w jx 4
  let px ← load32 src (o + (b.start + jx))
  some (add16 store (mulhrs16 (dupLo px) ws))

/-- One sample, `s_accumulate_1_horiz`, `src/sse/plane_u8_hrs.rs:55-63,209-227,299-306`. -/
def planeHrs1 (src : List ℕ) (w : List ℤ) (b : Bounds) (jx o : ℕ) (store : Reg) : Option Reg := do
  let ws ← loadWeights w jx 1
  let v ← loadBytes src (o + (b.start + jx)) 1
  let v ← v[0]?
  let px := srli16 2 ([v, v] ++ List.replicate 14 0)
  some (add16 store (mulhrs16 px ws))

/-- `_mm_hsum_epi16_and_compress::<6>`, `src/sse/plane_u8_hrs.rs:38-51` (`shuffle(0, 0, 0, 1)` selects
1, 0, 0, 0). -/
def hrsFinish (x : Reg) : List ℕ :=
  let v0 := hadd16 x x
  let v1 := shuffle32 [1, 0, 0, 0] v0
  let v2 := add16 v0 v1
  let v3 := srai16 6 (hadd16 v2 v2)
  (packus16 v3 v3).take 1

/-- `convolve_horizontal_plane_sse_rows_hrs_4_u8_impl` and
`convolve_horizontal_plane_sse_row_hrs_impl`, `src/sse/plane_u8_hrs.rs:111-241,253-322`. -/
def planeSseHrs (src : List ℕ) (offs : List ℕ) (w : List ℤ) (b : Bounds) :
    Option (List (List ℕ)) := do
  let st := offs.map fun _ => setr16 [LP_ROUNDING, 0, 0, 0, 0, 0, 0, 0]
  let (jx, st) ← rowsLoop 16 16 b.size offs (planeHrs16 src w b) 0 st
  let (jx, st) ← rowsLoop 8 8 b.size offs (planeHrs8 src w b) jx st
  let (jx, st) ← rowsLoop 4 4 b.size offs (planeHrs4 src w b) jx st
  let (_, st) ← rowsLoop 0 1 b.size offs (planeHrs1 src w b) jx st
  some (st.map hrsFinish)

/-! ### `src/sse/cbcr8_hrs.rs` -/

/-- `weights_lo`, `src/sse/cbcr8_hrs.rs:114,254`. -/
def cbcrWeightsLo : List ℤ := [0, 1, 0, 1, 2, 3, 2, 3, 4, 5, 4, 5, 6, 7, 6, 7]
/-- `weights_hi`, `src/sse/cbcr8_hrs.rs:115,255`. -/
def cbcrWeightsHi : List ℤ := [8, 9, 8, 9, 10, 11, 10, 11, 12, 13, 12, 13, 14, 15, 14, 15]

/-- Eight pixels, `conv_cb_cr_8`, `src/sse/cbcr8_hrs.rs:84-98,151-167,270-277`. -/
def cbcrHrs8 (src : List ℕ) (w : List ℤ) (b : Bounds) (jx o : ℕ) (store : Reg) : Option Reg := do
  let ws ← loadWeights w jx 8
  let px ← load128 src (o + (b.start + jx) * 2)
  let p := add16 store (mulhrs16 (dupLo px) (shuffle8 ws cbcrWeightsLo))
  some (add16 p (mulhrs16 (dupHi px) (shuffle8 ws cbcrWeightsHi)))

/-- Four pixels, `conv_cb_cr_4`, `src/sse/cbcr8_hrs.rs:75-82,169-181,279-284`. -/
def cbcrHrs4 (src : List ℕ) (w : List ℤ) (b : Bounds) (jx o : ℕ) (store : Reg) : Option Reg := do
  let ws ← loadWeights w jx 4
  let px ← load64 src (o + (b.start + jx) * 2)
  some (add16 store (mulhrs16 (dupLo px) (shuffle8 ws cbcrWeightsLo)))

/-- Two pixels, `conv_cb_cr_2`, `src/sse/cbcr8_hrs.rs:66-73,183-195,286-291`. -/
def cbcrHrs2 (src : List ℕ) (w : List ℤ) (b : Bounds) (jx o : ℕ) (store : Reg) : Option Reg := do
  let ws ← loadWeights w jx 2
  let px ← load32 src (o + (b.start + jx) * 2)
  some (add16 store (mulhrs16 (dupLo px) (shuffle8 ws cbcrWeightsLo)))

/-- One pixel, `conv_cb_cr_1`, `src/sse/cbcr8_hrs.rs:57-64,197-209,293-297`. -/
def cbcrHrs1 (src : List ℕ) (w : List ℤ) (b : Bounds) (jx o : ℕ) (store : Reg) : Option Reg := do
  let ws ← loadWeights w jx 1
  let px ← load16 src (o + (b.start + jx) * 2)
  some (add16 store (mulhrs16 (dupLo px) (shuffle8 ws cbcrWeightsLo)))

/-- `_mm_reduce_epi16_x2::<6>`, `src/sse/cbcr8_hrs.rs:233-244` (`shuffle(3, 2, 0, 1)` selects
1, 0, 2, 3), and the two bytes stored. -/
def cbcrFinish (x : Reg) : List ℕ :=
  let j := shuffle8 x [0, 1, 4, 5, 2, 3, 6, 7, 8, 9, 12, 13, 10, 11, 14, 15]
  let v0 := hadd16 j j
  let v1 := shuffle32 [1, 0, 2, 3] v0
  let v2 := srai16 6 (add16 v0 v1)
  (packus16 v2 v2).take 2

/-- `convolve_horizontal_cbcr_sse_hrs_rows_4_impl` and
`convolve_horizontal_cbcr_sse_hrs_row_one_impl`, `src/sse/cbcr8_hrs.rs:100-220,246-299`. -/
def cbcrSseHrs (src : List ℕ) (offs : List ℕ) (w : List ℤ) (b : Bounds) :
    Option (List (List ℕ)) := do
  let st := offs.map fun _ => setr16 [LP_ROUNDING, LP_ROUNDING, 0, 0, 0, 0, 0, 0]
  let (jx, st) ← rowsLoop 8 8 b.size offs (cbcrHrs8 src w b) 0 st
  let (jx, st) ← rowsLoop 4 4 b.size offs (cbcrHrs4 src w b) jx st
  let (jx, st) ← rowsLoop 2 2 b.size offs (cbcrHrs2 src w b) jx st
  let (_, st) ← rowsLoop 0 1 b.size offs (cbcrHrs1 src w b) jx st
  some (st.map cbcrFinish)

end PicScale
