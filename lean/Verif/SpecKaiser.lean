import Mathlib.Data.Rat.Defs
import Mathlib.Algebra.Order.Ring.Rat

/-!
What the Kaiser window needs of the square root; no code here.
-/

namespace PicScale.Spec

/-- A square root on `[0, 1]` as far as it matters here: it stays in `[0, 1]` and does not decrease. A correctly rounded
square root is one. -/
structure SqrtLike (sqrt : ℚ → ℚ) : Prop where
  range : ∀ v, 0 ≤ v → v ≤ 1 → 0 ≤ sqrt v ∧ sqrt v ≤ 1
  mono : ∀ v w, 0 ≤ v → v ≤ w → w ≤ 1 → sqrt v ≤ sqrt w

end PicScale.Spec
