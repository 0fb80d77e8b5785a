import Verif.Model.NeonAlpha
import Verif.Model.AlphaF16
import Verif.Model.NeonF16

/-!
Alpha handling of RGBA f16 images on aarch64 (`nightly_f16`): `src/neon/alpha_f16.rs`,
`src/neon/alpha_f16_full.rs`, and the selection in `src/alpha_handle_f16.rs:128-204`. Samples are patterns; arithmetic is on numbers, so
the signs of zeros, infinities and NaN are not followed through it. Dividing by a minus zero (which is not found by the
test for zero in `src/neon/alpha_f16.rs:133`) is therefore outside the model.
-/

namespace PicScale

/-! ### widened to f32 -/

/-- One colour plane of `neon_premultiply_alpha_rgba_row_f16`, `src/neon/alpha_f16.rs:47-78`: both halves of eight lanes
widened (`fcvtl`), `vmulq_f32`, narrowed (`fcvtn`), combined. -/
def premulWideN (o : HalfOps ℕ ℚ) (v a : List ℕ) : List ℕ :=
  let f := fun x y => o.narrow (F32.mul (o.widen x) (o.widen y))
  List.zipWith f (quad v 0) (quad a 0) ++ List.zipWith f (quad v 1) (quad a 1)

/-- One colour plane of `neon_unpremultiply_alpha_rgba_row_f16`, `src/neon/alpha_f16.rs:133-185`: the same with
`vdivq_f32`, and 0 where the bits of alpha are 0 (`vceqzq_u16`, `vbslq_u16`). -/
def unpremulWideN (o : HalfOps ℕ ℚ) (v a : List ℕ) : List ℕ :=
  let f := fun x y => o.narrow (F32.div (o.widen x) (o.widen y))
  zeroWhereN a (List.zipWith f (quad v 0) (quad a 0) ++ List.zipWith f (quad v 1) (quad a 1))

/-- `neon_premultiply_alpha_rgba_row_f16`, `src/neon/alpha_f16.rs:39-91`. -/
def premulRowWideN (o : HalfOps ℕ ℚ) : List ℕ → List ℕ → Option (List ℕ) :=
  chunksThen 32 (planes 8 0 (premulWideN o)) (alphaRow (premultiplyPixelH o))

/-- `neon_unpremultiply_alpha_rgba_row_f16`, `src/neon/alpha_f16.rs:122-192`. -/
def unpremulRowWideN (o : HalfOps ℕ ℚ) : List ℕ → Option (List ℕ) :=
  chunksThenInPlace 32 (planes 8 0 (unpremulWideN o)) (alphaRowInPlace (unpremultiplyPixelH o))

/-! ### in halves -/

/-- `xvdivq_f16` (`fdiv .8h`), one lane: the quotient rounded once to a half. -/
def halfDiv (x y : ℕ) : ℕ := F16.enc (F16.dec x / F16.dec y)

/-- One colour plane of `neon_premultiply_alpha_rgba_row_f16_full`, `src/neon/alpha_f16_full.rs:47-52,76-81`:
`xvmulq_f16`. -/
def premulFullN (v a : List ℕ) : List ℕ := List.zipWith F16.halfVec.mul v a

/-- One colour plane of `neon_unpremultiply_alpha_rgba_f16_row_full`, `src/neon/alpha_f16_full.rs:134-151,175-192`:
`xvdivq_f16`, and the **old colour** where alpha is a zero (`xvceqzq_f16`, of either sign). -/
def unpremulFullN (v a : List ℕ) : List ℕ :=
  List.zipWith (fun x y => if F16.dec y = 0 then x else halfDiv x y) v a

/-- `neon_premultiply_alpha_rgba_row_f16_full`, `src/neon/alpha_f16_full.rs:39-95`: blocks of eight pixels, and the rest
through a zeroed buffer. The portable call at `:67` writes the rest first; all of it is overwritten, so it is left out. -/
def premulRowFullN : List ℕ → List ℕ → Option (List ℕ) := alphaChunks 32 (planes 8 0 premulFullN)

/-- `neon_unpremultiply_alpha_rgba_f16_row_full`, `src/neon/alpha_f16_full.rs:125-204`. -/
def unpremulRowFullN : List ℕ → Option (List ℕ) := alphaChunksInPlace 32 (planes 8 0 unpremulFullN)

/-! ### selection -/

/-- RGBA f16 on aarch64: `src/alpha_handle_f16.rs:148-153,186-191`, with `fp16` what `is_aarch_f16_supported()` says; the
check always says yes (`src/image_store.rs:698-700`). -/
def alphaNeonF16 (fp16 : Bool) (o : HalfOps ℕ ℚ) : AlphaOps ℕ where
  isNeeded := fun _ => true
  premultiply := premultiplyImageWith (if fp16 then premulRowFullN else premulRowWideN o)
  unpremultiply := unpremultiplyImageWith (if fp16 then unpremulRowFullN else unpremulRowWideN o)

end PicScale
