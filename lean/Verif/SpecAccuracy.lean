import Mathlib.Algebra.BigOperators.Group.Finset.Basic
import Mathlib.Algebra.Order.Ring.Rat

/-!
What an exact pass would compute: the weighted sum over the rationals, clamped. No code here.
-/

namespace PicScale.Spec

/-- The exact weighted sum of the samples `p 0 … p (n-1)`. -/
def exactSum (n : ℕ) (w : ℕ → ℚ) (p : ℕ → ℕ) : ℚ := ∑ k ∈ Finset.range n, w k * (p k : ℚ)

/-- Clamp a rational to `0 … hi`. -/
def clampQ (hi : ℕ) (v : ℚ) : ℚ := max 0 (min v hi)

end PicScale.Spec
