import Verif.Model.X86

/-!
Model of the 8-bit handlers behind the feature `nightly_avx512`: `src/avx512/vertical_u8_lp.rs`
(AVX-512BW) and `src/avx512/rgba_u8_dot.rs` (AVX-VNNI), and of the choice between them and the
handlers of `Model/X86.lean`.

A 512-bit register is the list of its four 128-bit lanes: every arithmetic instruction used here
(`unpacklo/hi_epi8`, `srli`, `mulhrs`, `add`, `srai`, `packus`) works on the lanes independently.
256-bit registers are (low half, high half) as in `Model/SimdVertical.lean`.

With this feature the AVX2 handlers of `src/avx2/rgb_u8.rs` and `src/avx2/vertical_u8.rs` may run with
`HAS_DOT = true`, where `_mm256_dot16_avx_epi32` is one `dpwssd` instead of an addition and a
`madd`. `dpwssd_eq` (`Lemmas/Avx512.lean`) proves that this is the same function, so the model of
these handlers in `Model/SimdHorizontal.lean` and `Model/SimdVertical.lean` covers both.
-/

namespace PicScale

/-- What `is_x86_feature_detected!` reports: `base` for SSE4.1 and AVX2, `avx512` for `avx512bw`
(which implies `avx512f`), `vnni` for `avxvnni`, `vbmi` for `avx512vbmi`. -/
structure Cpu512 where
  base : Cpu
  avx512 : Bool
  vnni : Bool
  vbmi : Bool
  deriving DecidableEq, Repr

/-! ### `src/avx512/vertical_u8_lp.rs` -/

/-- The four 128-bit lanes of 64 bytes. -/
def lanes512 (l : List ℕ) : List Reg := (List.range 4).map fun r => (l.drop (16 * r)).take 16

/-- `_mm512_maskz_loadu_epi8` with a mask of the `m` lowest bits: `m` bytes are read, the others are
zero and not accessed. -/
def maskzLoad512 (src : List ℕ) (off m : ℕ) : Option (List Reg) :=
  (loadBytes src off m).map fun l => lanes512 (l ++ List.replicate (64 - m) 0)

/-- `_mm512_mask_storeu_epi8` with a mask of the `m` lowest bits: `m` bytes are written. -/
def maskStore512 (dst : List ℕ) (off m : ℕ) (v : List Reg) : Option (List ℕ) :=
  writeAt? dst off (v.flatten.take m)

/-- One source row: the masked load and `m512dot`, `src/avx512/vertical_u8_lp.rs:47-68,106-110` and its
copies. -/
def lp512Step (b : Bounds) (src : List ℕ) (stride : ℕ) (filter : List ℤ) (px m j : ℕ)
    (st : List (Reg × Reg)) : Option (List (Reg × Reg)) := do
  let w ← filter[j]?
  let row ← maskzLoad512 src (stride * (b.start + j) + px) m
  some (List.zipWith (fun s r => mdot s r (set1epi16 w)) st row)

/-- The cases 2 to 6 are written out, the others are a loop, `src/avx512/vertical_u8_lp.rs:104-242`. -/
def unrolled26 {σ : Type} (size : ℕ) (step : ℕ → σ → Option σ) (init : σ) : Option σ :=
  if size = 2 then do
    let st ← step 0 init
    step 1 st
  else if size = 3 then do
    let st ← step 0 init
    let st ← step 1 st
    step 2 st
  else if size = 4 then do
    let st ← step 0 init
    let st ← step 1 st
    let st ← step 2 st
    step 3 st
  else if size = 5 then do
    let st ← step 0 init
    let st ← step 1 st
    let st ← step 2 st
    let st ← step 3 st
    step 4 st
  else if size = 6 then do
    let st ← step 0 init
    let st ← step 1 st
    let st ← step 2 st
    let st ← step 3 st
    let st ← step 4 st
    step 5 st
  else forRange 0 size step init

/-- One chunk of `m ≤ 64` samples at `px`, `src/avx512/vertical_u8_lp.rs:91-255`. -/
def lp512Chunk (b : Bounds) (src : List ℕ) (stride : ℕ) (filter : List ℤ) (px m : ℕ)
    (dst : List ℕ) : Option (List ℕ) := do
  let st ← unrolled26 b.size (lp512Step b src stride filter px m)
    (List.replicate 4 (set1epi16 LP_ROUNDING, set1epi16 LP_ROUNDING))
  maskStore512 dst px m (st.map fun s => packus16 (srai16 6 s.1) (srai16 6 s.2))

/-- `convolve_vertical_avx512_row_lp`, `src/avx512/vertical_u8_lp.rs:35-259`: `chunks_mut(64)` visits the
offsets 0, 64, … while something is left; the last chunk may be shorter. -/
def avx512ColumnLp (b : Bounds) (src dst : List ℕ) (stride : ℕ) (weight : List ℤ) :
    Option (List ℕ) := do
  let total := dst.length
  let (_, d) ← whileBlocks 0 64 total
    (fun px d => lp512Chunk b src stride weight px (min 64 (total - px)) d) total 0 dst
  some d

/-! ### `src/avx512/rgba_u8_dot.rs` -/

/-- The lanes of `_mm_dpwssd_avx_epi32`: `acc + b0 * c0 + b1 * c1`, the low 32 bits. -/
def dpwssdLanes : List ℤ → List ℤ → List ℤ → List ℤ
  | a :: as, b :: b' :: bs, c :: c' :: cs => i32 (a + b * c + b' * c') :: dpwssdLanes as bs cs
  | _, _, _ => []
/-- `_mm_dpwssd_avx_epi32(a, b, c)`. -/
def dpwssd (a b c : Reg) : Reg := ofLanes32 (dpwssdLanes (lanes32 a) (lanes16 b) (lanes16 c))
/-- `_mm256_dpwssd_avx_epi32`. -/
def dpwssdX2 (a b c : Reg × Reg) : Reg × Reg := (dpwssd a.1 b.1 c.1, dpwssd a.2 b.2 c.2)

/-- `shuffle_weights_table` and one half of `a_shuffle_weights_table`,
`src/avx512/rgba_u8_dot.rs:60,66-69,396,402-405`. -/
def vnniWeightsLo : List ℤ := [0, 1, 2, 3, 0, 1, 2, 3, 0, 1, 2, 3, 0, 1, 2, 3]
/-- One half of `a_shuffle_weights_table_hi`, `src/avx512/rgba_u8_dot.rs:70-73,406-409`. -/
def vnniWeightsHi : List ℤ := [4, 5, 6, 7, 4, 5, 6, 7, 4, 5, 6, 7, 4, 5, 6, 7]
/-- `shuffle_1_table`, `src/avx512/rgba_u8_dot.rs:64,400`. -/
def vnniShuffle1 : List ℤ := [0, -1, -1, -1, 1, -1, -1, -1, 2, -1, -1, -1, 3, -1, -1, -1]

/-- Eight pixels, `src/avx512/rgba_u8_dot.rs:162-209,436-459`. -/
def vnni8 (src : List ℕ) (w : List ℤ) (b : Bounds) (jx o : ℕ) (store : Reg × Reg) :
    Option (Reg × Reg) := do
  let ws ← loadWeights w jx 8
  let weights := permute50 ws
  let weight01 := shuffle8x2 weights vnniWeightsLo
  let weight23 := shuffle8x2 weights vnniWeightsHi
  let pl ← load128 src (o + (b.start + jx) * 4)
  let ph ← load128 src (o + (b.start + jx) * 4 + 16)
  let hi := shuffle8x2 (pl, ph) rgbaShuffleHi
  let lo := shuffle8x2 (pl, ph) rgbaShuffleLo
  some (dpwssdX2 (dpwssdX2 store lo weight01) hi weight23)

/-- Four pixels, `src/avx512/rgba_u8_dot.rs:211-255,461-481`. -/
def vnni4 (src : List ℕ) (w : List ℤ) (b : Bounds) (jx o : ℕ) (store : Reg × Reg) :
    Option (Reg × Reg) := do
  let ws ← loadWeights w jx 4
  let weight01 := shuffle8x2 (shuffle32 [0, 0, 0, 0] ws, shuffle32 [1, 1, 1, 1] ws) vnniWeightsLo
  let px ← load128 src (o + (b.start + jx) * 4)
  let lo := shuffle8x2 (permute50 px) rgbaShuffleLo
  some (dpwssdX2 store lo weight01)

/-- Two pixels, `src/avx512/rgba_u8_dot.rs:278-305,489-504`. -/
def vnni2 (src : List ℕ) (w : List ℤ) (b : Bounds) (jx o : ℕ) (store : Reg) : Option Reg := do
  let ws ← loadWeights w jx 2
  let px ← load64 src (o + (b.start + jx) * 4)
  some (dpwssd store (shuffle8 px rgbaShuffleLo) (shuffle8 ws vnniWeightsLo))

/-- One pixel, `src/avx512/rgba_u8_dot.rs:307-338,506-525`. -/
def vnni1 (src : List ℕ) (w : List ℤ) (b : Bounds) (jx o : ℕ) (store : Reg) : Option Reg := do
  let ws ← loadWeights w jx 1
  let px ← load32 src (o + (b.start + jx) * 4)
  some (dpwssd store (shuffle8 px vnniShuffle1) (shuffle8 ws vnniWeightsLo))

/-- The part for more than four taps, `src/avx512/rgba_u8_dot.rs:118-276,424-487`; `vld` is what
shorter windows start with. -/
def vnniWide (vld : ℤ) (src : List ℕ) (offs : List ℕ) (w : List ℤ) (b : Bounds) :
    Option (ℕ × List Reg) :=
  if b.size > 4 then do
    let st := offs.map fun _ =>
      (setr32 [ROUNDING_CONST, ROUNDING_CONST, ROUNDING_CONST, ROUNDING_CONST], setzero)
    let (jx, st) ← rowsLoop 8 8 b.size offs (vnni8 src w b) 0 st
    let (jx, st) ← rowsLoop 4 4 b.size offs (vnni4 src w b) jx st
    some (jx, st.map fun s => add32 s.1 s.2)
  else some (0, offs.map fun _ => set1epi32 vld)

/-- Both handlers up to `vld`. `compress_i32` is `src/avx512/utils.rs:156-163`. -/
def vnniRows (vld : ℤ) (src : List ℕ) (offs : List ℕ) (w : List ℤ) (b : Bounds) :
    Option (List (List ℕ)) := do
  let (jx, st) ← vnniWide vld src offs w b
  let (jx, st) ← rowsLoop 2 2 b.size offs (vnni2 src w b) jx st
  let (_, st) ← rowsLoop 0 1 b.size offs (vnni1 src w b) jx st
  some (st.map fun s => (compressI32 s).take 4)

/-- `convolve_horizontal_rgba_vnni_row_4`, `src/avx512/rgba_u8_dot.rs:38-363`: `vld` is
`_mm_set1_epi32(ROUNDING_CONST)` (`:86`). -/
def vnniRow4 (src : List ℕ) (offs : List ℕ) (w : List ℤ) (b : Bounds) : Option (List (List ℕ)) :=
  vnniRows ROUNDING_CONST src offs w b

/-- `convolve_horizontal_rgba_vnni_row_1`, `src/avx512/rgba_u8_dot.rs:365-534`: `vld` is
`_mm_set1_epi32(PRECISION)` (`:422`), as in the code. -/
def vnniRow1 (src : List ℕ) (offs : List ℕ) (w : List ℤ) (b : Bounds) : Option (List (List ℕ)) :=
  vnniRows (PRECISION : ℤ) src offs w b

/-! ### The choice of the handlers -/

/-- The AVX-512 vertical handler is used, the same text in the four files: `src/plane_u8.rs:184-191`,
`src/cbcr8.rs:162-169`, `src/rgb_u8.rs:181-188`, `src/rgba_u8.rs:205-212`. -/
def uses512V (cpu : Cpu512) (s : Workload) (sh dh : ℕ) : Bool :=
  cpu.avx512 && below8 sh dh && decide (s = .preferSpeed)

/-- The VNNI handlers are used for RGBA whatever the strategy and the sizes,
`src/rgba_u8.rs:122-131`. -/
def usesVnni (cpu : Cpu512) (N : ℕ) : Bool := decide (N = 4) && cpu.vnni

/-- The vertical pass, `src/rgba_u8.rs:145-225` and the same in the other three files. -/
def vertical512 (cpu : Cpu512) (s : Workload) (N : ℕ) (src dst : Image ℕ) (fw : FilterWeights ℤ) :
    Option (Image ℕ) :=
  if uses512V cpu s src.height dst.height then
    verticalDispatch N src dst fw.bounds fw.alignedSize fw.weights
      (fun b sr d ss w => avx512ColumnLp b sr d ss w)
  else verticalX86 cpu.base (selectV cpu.base s src.height dst.height) N src dst fw

/-- The horizontal pass, `src/rgba_u8.rs:55-144`. The VNNI handlers are compiled with
`#[target_feature(enable = "avxvnni", enable = "avx2")]`; a CPU with the former has the latter. -/
def horizontal512 (cpu : Cpu512) (s : Workload) (N : ℕ) (src dst : Image ℕ) (fw : FilterWeights ℤ) :
    Option (Image ℕ) :=
  if usesVnni cpu N then
    horizontalDispatch N src dst
      (some fun sr ss d ds => simdRows4 N (vnniRow4 sr) ss d ds fw)
      (fun sr d => simdRow N (vnniRow1 sr) d fw)
  else horizontalX86 cpu.base (selectH cpu.base s N src.width src.height dst.width dst.height) N src dst fw

/-- 8-bit images on x86 with the feature `nightly_avx512`. -/
def format512 (cpu : Cpu512) (s : Workload) (N : ℕ) : Format ℕ where
  default := 0
  shouldHaveBitDepth := false
  vertical := fun src dst fw => vertical512 cpu s N src dst (numericalApproximation F32.rnd fw)
  horizontal := fun src dst fw => horizontal512 cpu s N src dst (numericalApproximation F32.rnd fw)

end PicScale
