import Verif.SpecResize

/-!
The low precision arithmetic of the "prefer speed" handlers, in terms of samples and weights; no code
here.
-/

namespace PicScale.Spec

open Finset

/-- One tap with 6 fractional bits: the 8-bit sample is widened to `⌊257 p / 4⌋` (about `64 p`),
multiplied by the weight (15 fractional bits) and rounded half up. -/
def lowTerm (p : ℕ) (w : ℤ) : ℤ := ⌊(((257 * p / 4 : ℕ) : ℚ) * (w : ℚ) / 32768 + 1 / 2)⌋

/-- One low precision pass value: the sum of the taps, divided by 64, rounded half up and clamped. -/
def fixedLow (n : ℕ) (w : ℕ → ℤ) (p : ℕ → ℕ) : ℕ :=
  clamp 255 ⌊((∑ k ∈ range n, lowTerm (p k) (w k) : ℤ) : ℚ) / 64 + 1 / 2⌋

end PicScale.Spec

namespace PicScale

/-- The weights are `i16` values. -/
def I16Weights (fw : FilterWeights ℤ) : Prop := ∀ w ∈ fw.weights, -32768 ≤ w ∧ w ≤ 32767

/-- No accumulator of a window can reach `2^30` when source samples are bytes. -/
def NoOverflow30 (fw : FilterWeights ℤ) (out : ℕ) : Prop :=
  ∀ i, i < out → (∑ k ∈ Finset.range (fw.bound i).size, |fw.weight i k|) * 255 + 2 ^ 14 < 2 ^ 30

/-- No 16-bit accumulator of a window can overflow in the low precision handlers when source samples
are bytes: the absolute weights of a window add up to less than about 1.99. -/
def NoOverflow16 (fw : FilterWeights ℤ) (out : ℕ) : Prop :=
  ∀ i, i < out → ∑ k ∈ Finset.range (fw.bound i).size, (|fw.weight i k| + 1) < 65472

end PicScale
