import Verif.Model.Floating
import Verif.Model.Resize

/-!
The 16-bit and f32 image formats (scalar path).
-/

namespace PicScale

variable {S A : Type}

/-- `mlaf`, `src/mlaf.rs:31-63`, over a rounding `ρ`: one rounding when the build has FMA
(`MulAdd::mul_add`), two otherwise (`acc + a * b`). -/
def mlaf (ρ : ℚ → ℚ) (fused : Bool) (acc a b : ℚ) : ℚ :=
  if fused then ρ (acc + a * b) else ρ (acc + ρ (a * b))

/-- `f32 → u16`, `src/mixed_storage.rs:49-55`: `self.ceil().max(0.).min((1 << bit_depth) - 1) as u16`
(the arguments are integers by then; `2^16 - 1` is exact in `f32`). -/
def toMixedU16 (bitDepth : ℕ) (v : ℚ) : ℕ := (min (max ⌈v⌉ 0) ((2 ^ bitDepth - 1 : ℕ) : ℤ)).toNat

/-- `u16` samples, `f32` accumulators. A `u16` is exactly representable in `f32`. -/
def u16Ops (ρ : ℚ → ℚ) (fused : Bool) (bitDepth : ℕ) : FloatOps ℕ ℚ where
  conv := fun n => n
  weight := fun w => w
  zero := 0
  mul := fun a b => ρ (a * b)
  mla := mlaf ρ fused
  fin := toMixedU16 bitDepth

/-- `f32` samples and accumulators (finite values). -/
def f32Ops (ρ : ℚ → ℚ) (fused : Bool) : FloatOps ℚ ℚ where
  conv := fun v => v
  weight := fun w => w
  zero := 0
  mul := fun a b => ρ (a * b)
  mla := mlaf ρ fused
  fin := fun v => v

/-- f32 images (`src/plane_f32.rs`, `src/cbcr_f32.rs`, `src/rgb_f32.rs`, `src/rgba_f32.rs`, without
SIMD) over arbitrary float operations; `d0` is `f32::default()`. `CheckStoreDensity` for `f32`:
no bit depth is required (`src/image_store.rs`). -/
def formatFloat (o : FloatOps S A) (d0 : S) (N : ℕ) : Format S where
  default := d0
  shouldHaveBitDepth := false
  vertical := fun src dst fw => verticalFloat o N src dst fw
  horizontal := fun src dst fw => horizontalFloat o N src dst fw

/-- u16 images (`src/plane_u16.rs`, `src/cbcr16.rs`, `src/rgb_u16.rs`, `src/rgba_u16.rs`, without SIMD):
`convolve_*_dispatch_u16` (`src/dispatch_group_u16.rs:47-300`) use the floating point handlers when the
*destination* is deeper than 12 bits, else `i16` weights and `i32` accumulators. -/
def formatU16 (fused : Bool) (N : ℕ) : Format ℕ where
  default := 0
  shouldHaveBitDepth := true
  vertical := fun src dst fw =>
    if 12 < dst.bitDepth then verticalFloat (u16Ops F32.rnd fused dst.bitDepth) N src dst fw
    else verticalFixed N (2 ^ dst.bitDepth - 1) src dst (numericalApproximation F32.rnd fw)
  horizontal := fun src dst fw =>
    if 12 < dst.bitDepth then horizontalFloat (u16Ops F32.rnd fused dst.bitDepth) N src dst fw
    else horizontalFixed N (2 ^ dst.bitDepth - 1) src dst (numericalApproximation F32.rnd fw)

end PicScale
