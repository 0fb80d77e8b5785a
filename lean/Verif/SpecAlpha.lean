import Verif.SpecResize

/-!
Alpha vocabulary; no code here.
-/

namespace PicScale.Spec

/-- `a / b` rounded to the nearest integer, halves up. -/
def roundDiv (a b : ℕ) : ℕ := ⌊(a : ℚ) / b + 1 / 2⌋.toNat

/-- The alpha sample of pixel `(x, y)` of an RGBA image. -/
def alphaAt (buf : List ℕ) (stride y x : ℕ) : ℕ := pxD 0 buf stride 4 y x 3

/-- The image has two pixels with different alpha. -/
def AlphaVaries (img : Image ℕ) : Prop :=
  ∃ y x y' x', y < img.height ∧ x < img.width ∧ y' < img.height ∧ x' < img.width ∧
    alphaAt img.buffer (img.strideOf 4) y x ≠ alphaAt img.buffer (img.strideOf 4) y' x'

end PicScale.Spec
