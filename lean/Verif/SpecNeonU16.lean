import Verif.SpecNeon
import Verif.SpecFloatErr

/-! Roundings of the NEON handlers for u16 images, in terms of samples and weights; no code here. -/

namespace PicScale.Spec

/-- One fixed point pass value up to a maximum `hi`, rounded to nearest, halves down, and clamped. -/
def fixedHalfDown (hi n : ℕ) (w : ℕ → ℤ) (p : ℕ → ℕ) : ℕ := clamp hi (fixRoundDown (wsum n w (fun k => (p k : ℤ))))

/-- Nearest integer, halves up, clamped to the `d` bits of a sample. -/
def nearestClamp (d : ℕ) (v : ℚ) : ℕ := clamp (2 ^ d - 1) ⌊v + 1 / 2⌋

/-- Size of the underflow terms of a half precision sum: per tap, one for the sample, the weight, their product and
the sum. -/
def underSize (n : ℕ) (p w : ℕ → ℚ) : ℚ := ∑ k ∈ Finset.range n, (|p k| + |w k| + 2)

/-- Bound on the binary16 error of a sum of `n` products: relative errors of `2^-11` for sample, weight and each
level of the sum, underflows of `2^-25`. -/
def halfSumErr (n : ℕ) (p w : ℕ → ℚ) : ℚ :=
  ((1 + 1 / 2 ^ 11) ^ (n + 2) - 1) * termSize n p w + (1 + 1 / 2 ^ 11) ^ (n + 2) * underSize n p w / 2 ^ 25

/-- The sum cannot overflow binary16 (65520 rounds to infinity). -/
def HalfFits (n : ℕ) (p w : ℕ → ℚ) : Prop :=
  (∀ k, k < n → |w k| < 65520) ∧
    (1 + 1 / 2 ^ 11) ^ (n + 2) * (termSize n p w + underSize n p w / 2 ^ 25) < 65520

end PicScale.Spec
