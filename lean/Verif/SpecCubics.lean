import Mathlib.Data.Rat.Floor

/-!
The two-parameter family of cubic filters of Mitchell and Netravali (1988); no code here.
-/

namespace PicScale.Spec

/-- The Mitchell-Netravali cubic with parameters `B` and `C` at distance `x` (in pixels, of either sign). -/
def mitchellNetravali (B C x : ℚ) : ℚ :=
  if |x| < 1 then ((12 - 9 * B - 6 * C) * |x| ^ 3 + (-18 + 12 * B + 6 * C) * |x| ^ 2 + (6 - 2 * B)) / 6
  else if |x| < 2 then
    ((-B - 6 * C) * |x| ^ 3 + (6 * B + 30 * C) * |x| ^ 2 + (-12 * B - 48 * C) * |x| + (8 * B + 24 * C)) / 6
  else 0

/-- The parameters of the Robidoux filter, given a value `s` of `√2`. -/
def robidouxParams (s : ℚ) : ℚ × ℚ := (12 / (19 + 9 * s), 113 / (58 + 216 * s))

/-- The parameters of the Robidoux Sharp filter, given a value `s` of `√2`. -/
def robidouxSharpParams (s : ℚ) : ℚ × ℚ := (6 / (13 + 7 * s), 7 / (2 + 12 * s))

end PicScale.Spec
