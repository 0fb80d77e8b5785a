import Verif.SpecResize
import Verif.SpecNeonAr30

/-! Specification of the parts of the AVX-512 and AVX-VNNI code whose arithmetic is its own. -/

namespace PicScale.Spec

/-- A fixed point pass value rounded down after adding `bias` (of 32768): `bias = 16384` would round
to nearest. -/
def fixedBias (bias : ℤ) (n : ℕ) (w : ℕ → ℤ) (p : ℕ → ℕ) : ℕ :=
  clamp 255 ⌊(((bias + wsum n w (fun k => (p k : ℤ)) : ℤ) : ℚ) / 32768)⌋

end PicScale.Spec
