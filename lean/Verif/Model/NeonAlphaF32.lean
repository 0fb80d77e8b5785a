import Verif.Model.NeonAlpha
import Verif.Model.AlphaX86F32

/-!
Alpha handling of RGBA f32 images on aarch64: `src/neon/alpha_f32.rs` and the selection in
`src/alpha_handle_f32.rs:133-200`. Values are rational, every operation rounds to the nearest `f32`; infinities, NaN and the sign
of zero are outside the model.
-/

namespace PicScale

/-- `vmulq_f32` on lanes, `src/neon/alpha_f32.rs:51-53`. -/
def mulNF (v a : List ℚ) : List ℚ := List.zipWith F32.mul v a

/-- `unpremultiply_vec_f32!`, `src/neon/alpha_f32.rs:37-43`: `vdivq_f32`, and 0 where alpha is 0. -/
def unpremulVecNF (v a : List ℚ) : List ℚ := List.zipWith (fun x y => if y = 0 then 0 else F32.div x y) v a

/-- `neon_premultiply_alpha_rgba_row_f32`, `src/neon/alpha_f32.rs:45-64`. -/
def premulRowNeonF : List ℚ → List ℚ → Option (List ℚ) :=
  chunksThen 16 (planes 4 0 mulNF) (alphaRow (premultiplyPixelF F32.rnd))

/-- `neon_unpremultiply_alpha_rgba_f32_row`, `src/neon/alpha_f32.rs:94-111`. -/
def unpremulRowNeonF : List ℚ → Option (List ℚ) :=
  chunksThenInPlace 16 (planes 4 0 unpremulVecNF) (alphaRowInPlace (unpremultiplyPixelF F32.rnd))

/-- RGBA f32 on aarch64: `premultiply_alpha_rgba_f32`, `unpremultiply_alpha_rgba_f32`
(`src/alpha_handle_f32.rs:133-200`), over rows as in `src/neon/alpha_f32.rs:66-92,113-137`; the check has no vector version
(`src/image_store.rs:659-680`). -/
def alphaNeonF32 (bits : ℚ → ℕ) : AlphaOps ℚ where
  isNeeded := (alphaF32 F32.rnd bits).isNeeded
  premultiply := premultiplyImageWith premulRowNeonF
  unpremultiply := unpremultiplyImageWith unpremulRowNeonF

end PicScale
