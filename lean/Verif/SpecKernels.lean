import Mathlib.Data.Rat.Floor
import Mathlib.Algebra.BigOperators.Intervals
import Mathlib.Data.Int.Interval
import Mathlib.Algebra.Polynomial.Taylor

/-!
Notions about interpolation kernels, independent of the code. A kernel `k` is a function of the distance to the
centre, in pixels; `k` has radius `R` when only pixels closer than `R` count. A signal with samples `p n` at the
integers is interpolated at `x` by `∑ p n * k |n - x|` over the `2 R` integers `n` around `x`.
-/

namespace PicScale.Spec

/-- The interpolation of the samples `p` at `x` with the kernel `k` of radius `R`. -/
def interpolate (k : ℚ → ℚ) (R : ℕ) (p : ℤ → ℚ) (x : ℚ) : ℚ :=
  ∑ n ∈ Finset.Ioc (⌊x⌋ - R) (⌊x⌋ + R), p n * k |(n : ℚ) - x|

/-- Interpolating the samples of a polynomial of degree at most `d` gives the polynomial back, at every position.
`d = 0`: flat signals stay flat (partition of unity). `d = 1`: linear gradients stay linear. -/
def Reproduces (k : ℚ → ℚ) (R d : ℕ) : Prop :=
  ∀ p : Polynomial ℚ, p.natDegree ≤ d → ∀ x : ℚ, interpolate k R (fun n => p.eval (n : ℚ)) x = p.eval x

/-- The kernel keeps the samples: at integer positions the interpolation is the sample itself. -/
def Interpolates (k : ℚ → ℚ) (R : ℕ) : Prop :=
  ∀ (p : ℤ → ℚ) (m : ℤ), interpolate k R p m = p m

end PicScale.Spec
