import Verif.SpecSimd

/-! The rounding of the NEON 32-bit handlers, in terms of samples and weights; no code here. -/

namespace PicScale.Spec

/-- Nearest integer to `s / 2^15`, ties towards minus infinity. -/
def fixRoundDown (s : ℤ) : ℤ := ⌈(s : ℚ) / 32768 - 1 / 2⌉

/-- One fixed point pass value, rounded to nearest, halves down, and clamped. -/
def fixedRoundDown (n : ℕ) (w : ℕ → ℤ) (p : ℕ → ℕ) : ℕ :=
  clamp 255 (fixRoundDown (wsum n w (fun k => (p k : ℤ))))

end PicScale.Spec
