import Verif.Model.NeonAlpha
import Verif.Model.AlphaX86U16
import Verif.Model.F16Bits

/-!
Alpha handling of RGBA16 on aarch64: `src/neon/alpha_u16.rs` and the selection in
`src/alpha_handle_u16.rs:207-210,252-255`. Conventions as in `Model/NeonAlpha.lean`; samples are below 65536.

Halves (`float16x8_t`) are represented by their values; the largest finite one is 65504, and where a result
overflows the value 65536 stands for infinity, which the final conversion saturates to 65535 either way. Operands are
finite when the image fits its depth (10 or 12 bits here).
-/

namespace PicScale

/-! ### instructions -/

/-- One lane of `vrsraq_n_u32::<k>(v, v)`: `v` plus its rounding shift, 32 bits. -/
def vrsra32 (k v : ℕ) : ℕ := (v + ((v + 2 ^ (k - 1)) >>> k)) % 2 ^ 32
/-- One lane of `vqrshrn_n_u32::<k>`: rounding shift, saturated to 16 bits. -/
def vqrshrn32 (k v : ℕ) : ℕ := min ((v + 2 ^ (k - 1)) >>> k) 65535
/-- One lane of `neon_div_by_1023_n`, `neon_div_by_4095_n`, `neon_div_by_65535_n`,
`src/neon/alpha_u16.rs:39-52`, with `k` = 10, 12, 16. -/
def neonDivBy (k v : ℕ) : ℕ := vqrshrn32 k (vrsra32 k v)

/-- Rounding to half, ties to even. -/
def rnd16 (q : ℚ) : ℚ := F16.dec (F16.enc q)
/-- One lane of `vcvtaq_u16_f16` (`fcvtau`) for a number that is not negative: nearest integer, ties away from 0,
saturating. -/
def vcvta16 (q : ℚ) : ℕ := min ⌊q + 1 / 2⌋.toNat 65535

/-! ### premultiplication -/

/-- One colour plane of `NeonPremultiplyExecutorDefault::<k>::premultiply`, `src/neon/alpha_u16.rs:83-96,114-127`:
the halves multiplied into 32 bits, divided, combined. -/
def premulIntN (k : ℕ) (v a : List ℕ) : List ℕ :=
  List.zipWith (fun x y => neonDivBy k (x * y)) (quad v 0) (quad a 0) ++
    List.zipWith (fun x y => neonDivBy k (x * y)) (quad v 1) (quad a 1)

/-- One colour plane of `NeonPremultiplyExecutorFloat16::premultiply_chunk`, `src/neon/alpha_u16.rs:149-153`. -/
def premulHalfN (recip : ℚ) (v a : List ℕ) : List ℕ :=
  let aValues := a.map fun (y : ℕ) => rnd16 (rnd16 (y : ℚ) * recip)
  List.zipWith (fun (x : ℕ) s => vcvta16 (rnd16 (rnd16 (x : ℚ) * s))) v aValues

/-- `xvrecpeq_f16(xvcvtq_f16_u16(vdupq_n_u16((1 << bit_depth) - 1)))`, `src/neon/alpha_u16.rs:167`. -/
def recipBitDepth (depth : ℕ) : ℚ := vrecpe1 (rnd16 ((2 ^ depth - 1 : ℕ) : ℚ))

/-- One lane of `v_scale_by_alpha`, `src/neon/alpha_u16.rs:371-387`: times a factor, to `u32`, low 16 bits. -/
def scaleLaneN (x : ℕ) (s : ℚ) : ℕ := vcvta1 (F32.mul (x : ℚ) s) % 65536
/-- `v_scale_by_alpha`, `src/neon/alpha_u16.rs:371-387`. -/
def vScaleByAlpha (px : List ℕ) (lowA highA : List ℚ) : List ℕ :=
  List.zipWith scaleLaneN (quad px 0) lowA ++ List.zipWith scaleLaneN (quad px 1) highA

/-- One colour plane of `NeonPremultiplyExecutorAnyBitDepth::premultiply`, `src/neon/alpha_u16.rs:218-228,249-259`. -/
def premulAnyN (scale : ℚ) (v a : List ℕ) : List ℕ :=
  vScaleByAlpha v ((quad a 0).map fun (y : ℕ) => F32.mul (y : ℚ) scale) ((quad a 1).map fun (y : ℕ) => F32.mul (y : ℚ) scale)

/-- `neon_premultiply_alpha_rgba_row_u16`, `src/neon/alpha_u16.rs:272-323`, with `fp16` what
`is_aarch64_feature_detected!("fp16")` says: blocks of 8 pixels, the rest through a zeroed buffer
(`:74-137`, `:162-199`, `:206-269`). The scale of the general executor is `(1. / max_colors as f64) as f32` (`:213`). -/
def premulRowNeon16 (fp16 : Bool) (depth : ℕ) : List ℕ → List ℕ → Option (List ℕ) :=
  alphaChunks 32 (planes 8 0 (
    if fp16 = true ∧ (depth = 10 ∨ depth = 12) then premulHalfN (recipBitDepth depth)
    else if depth = 10 ∨ depth = 12 ∨ depth = 16 then premulIntN (divExponent depth)
    else premulAnyN (F32.rnd (rnd64 (1 / ((2 ^ depth - 1 : ℕ) : ℚ))))))

/-! ### unpremultiplication -/

/-- `vbslq_u16(vceqzq_u16(a), x, y)`: the old colour where alpha is 0. -/
def keepWhereN (a x y : List ℕ) : List ℕ :=
  List.zipWith (fun m (p : ℕ × ℕ) => if m = 0 then p.1 else p.2) a (List.zip x y)

/-- One colour plane of `NeonDisassociateAlpha::disassociate`, `src/neon/alpha_u16.rs:404-432,446-474`. -/
def unpremulVec16N (maxColors : ℕ) (v a : List ℕ) : List ℕ :=
  let lowA := (quad a 0).map fun (y : ℕ) => F32.mul (F32.div 1 (y : ℚ)) (maxColors : ℚ)
  let hiA := (quad a 1).map fun (y : ℕ) => F32.mul (F32.div 1 (y : ℚ)) (maxColors : ℚ)
  keepWhereN a v (vScaleByAlpha v lowA hiA)

/-- One colour plane of `NeonDisassociateAlphaFloat16::disassociate_chunk`, `src/neon/alpha_u16.rs:487-524`. -/
def unpremulHalfN (maxColors : ℕ) (v a : List ℕ) : List ℕ :=
  let aVals := a.map fun (y : ℕ) => rnd16 (1 / rnd16 (y : ℚ))
  keepWhereN a v (List.zipWith (fun (x : ℕ) s => vcvta16 (rnd16 (rnd16 (rnd16 (x : ℚ) * s) * rnd16 (maxColors : ℚ)))) v aVals)

/-- `neon_unpremultiply_alpha_rgba_row_u16`, `src/neon/alpha_u16.rs:555-563`, with `fp16` what
`is_aarch_f16_supported()` says; the loops `:396-481`, `:531-552`. -/
def unpremulRowNeon16 (fp16 : Bool) (depth : ℕ) : List ℕ → Option (List ℕ) :=
  alphaChunksInPlace 32 (planes 8 0 (
    if (depth = 10 ∨ depth = 12) ∧ fp16 = true then unpremulHalfN (2 ^ depth - 1) else unpremulVec16N (2 ^ depth - 1)))

/-! ### selection -/

/-- RGBA16 on aarch64: `src/alpha_handle_u16.rs:207-210,252-255` with the depth of the destination
(`src/image_store.rs:604-619`, `:702-716`), and the check of `Model/NeonAlpha.lean`. `fp16` is what
`is_aarch64_feature_detected!("fp16")` says, `fp16'` what `is_aarch_f16_supported()` says: the same question, asked
of different sources on Apple systems (`src/cpu_features.rs:66-75`). -/
def alphaNeonU16 (fp16 fp16' : Bool) : AlphaOps ℕ where
  isNeeded := alphaNeededNeonU16
  premultiply := fun src dst => premultiplyImageWith (premulRowNeon16 fp16 dst.bitDepth) src dst
  unpremultiply := fun img => unpremultiplyImageWith (unpremulRowNeon16 fp16' img.bitDepth) img

end PicScale
