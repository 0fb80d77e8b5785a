import Verif.Model.Avx512
import Verif.Model.X86U16

/-!
The AVX-512 column handler of u16 images of at most 12 bits (feature `nightly_avx512`):
`src/avx512/vertical_u16_lb.rs`, chosen in `src/handler_provider.rs:624-630`.

A 512-bit register is the list of its four 128-bit lanes: `unpacklo/unpackhi/packus` act on each lane, the other
instructions on each element.
-/

namespace PicScale

/-- `_mm512_maskz_loadu_epi16` with a mask of the `m` lowest bits: `m` samples are read, the others are zero and not
accessed. -/
def maskzLoad512w (src : List ℕ) (off m : ℕ) : Option (List Reg) :=
  (slice? src off (off + m)).map fun l =>
    (List.range 4).map fun r =>
      ofLanes16 ((((l ++ List.replicate (32 - m) 0).drop (8 * r)).take 8).map fun (v : ℕ) => (v : ℤ))

/-- `_mm512_dot16_epi32::<HAS_DOT>` in one lane, `src/avx512/utils.rs:145-155`. -/
def dot512 (dot : Bool) (a b c : Reg) : Reg := if dot then dpwssd a b c else add32 a (madd16 b c)

/-- One source row: `src/avx512/vertical_u16_lb.rs:258-277` and its copies for 2, 3 and 4 taps. -/
def lb512Step (dot : Bool) (b : Bounds) (src : List ℕ) (stride : ℕ) (weight : List ℤ) (px m j : ℕ)
    (st : List (Reg × Reg)) : Option (List (Reg × Reg)) := do
  let w ← weight[j]?
  let row ← maskzLoad512w src (stride * (b.start + j) + px) m
  some (List.zipWith (fun s r => (dot512 dot s.1 (unpacklo16 r setzero) (set1epi16 w),
    dot512 dot s.2 (unpackhi16 r setzero) (set1epi16 w))) st row)

/-- One chunk of `m ≤ 32` samples at `px`, `src/avx512/vertical_u16_lb.rs:102-287`. The narrowing of a lane is the
same as with SSE4.1 (`lbNarrow`); `_mm512_mask_storeu_epi16` writes `m` samples. -/
def lb512Chunk (dot : Bool) (d : ℕ) (b : Bounds) (src : List ℕ) (stride : ℕ) (weight : List ℤ) (px m : ℕ)
    (dst : List ℕ) : Option (List ℕ) := do
  let step := lb512Step dot b src stride weight px m
  let st ← unrolled24 (if b.size ≤ 4 then b.size else min b.size weight.length) step step
    (List.replicate 4 (set1epi32 ROUNDING_CONST, set1epi32 ROUNDING_CONST))
  writeAt? dst px ((st.flatMap (lbNarrow d)).take m)

/-- `convolve_column_lb_avx512_impl`, `src/avx512/vertical_u16_lb.rs:82-289`: `chunks_mut(32)` visits the offsets 0,
32, … while something is left; the last chunk may be shorter. `dot` is the feature `avx512vnni` (`:49-53`). The
assertion on the depth (`:90`) holds for every depth the entry points accept. -/
def avx512ColumnLb (dot : Bool) (d : ℕ) (b : Bounds) (src dst : List ℕ) (stride : ℕ) (weight : List ℤ) :
    Option (List ℕ) := do
  let total := dst.length
  let (_, r) ← whileBlocks 0 32 total
    (fun px r => lb512Chunk dot d b src stride weight px (min 32 (total - px)) r) total 0 dst
  some r

/-- u16 images with the feature `nightly_avx512`: `u16::handle_fixed_column` (`src/handler_provider.rs:604-650`)
prefers the AVX-512 handler; the other passes are those of `formatU16X86`. (The variants of the AVX2 row handlers
that use `_mm256_dpwssd_avx_epi32` compute the same sums, `dpwssd_eq`.) -/
def formatU16X512 (cpu : Cpu512) (dot fma fused : Bool) (N : ℕ) : Format ℕ where
  default := 0
  shouldHaveBitDepth := true
  vertical := fun src dst fw =>
    if cpu.avx512 = true ∧ ¬ 12 < dst.bitDepth then
      let q := numericalApproximation F32.rnd fw
      verticalDispatch N src dst q.bounds q.alignedSize q.weights
        (fun b s d ss w => avx512ColumnLb dot dst.bitDepth b s d ss w)
    else (formatU16X86 cpu.base fma fused N).vertical src dst fw
  horizontal := (formatU16X86 cpu.base fma fused N).horizontal

end PicScale
