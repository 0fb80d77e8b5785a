import Mathlib.Algebra.Order.Ring.Rat
import Mathlib.Algebra.BigOperators.Group.Finset.Basic

/-!
Accuracy of binary32 sums of products; no code here.
-/

namespace PicScale.Spec

open Finset

/-- The exact weighted sum of `n` samples. -/
def dotSum (n : ℕ) (p w : ℕ → ℚ) : ℚ := ∑ k ∈ range n, p k * w k
/-- The sum of the magnitudes of its terms. -/
def termSize (n : ℕ) (p w : ℕ → ℚ) : ℚ := ∑ k ∈ range n, |p k| * |w k|

/-- Bound on the binary32 rounding error of a sum of `n` products whose magnitudes add up to `A`: one relative
error of `2^-24` per level of the sum, and one underflow of `2^-150` per operation. -/
def floatErr (n : ℕ) (A : ℚ) : ℚ :=
  ((1 + 1 / 2 ^ 24) ^ (n + 3) - 1) * A + (8 * n + 3) * (1 + 1 / 2 ^ 24) ^ (n + 3) / 2 ^ 150

end PicScale.Spec
