import Verif.SpecRinging
import Verif.Model.Store

/-!
Uniform pictures of floating point samples: how exact a result is expected to be; no code here.
-/

namespace PicScale.Spec

/-- How far a sample may be from the value `v` of a uniform picture, with windows of at most `n` pixels: a relative
part, and an absolute part for values near the smallest binary32 numbers. -/
def flatErr (n : ℕ) (v : ℚ) : ℚ := (120 * n + 400) / 2 ^ 24 * |v| + (128 * n + 64) / 2 ^ 149

end PicScale.Spec
