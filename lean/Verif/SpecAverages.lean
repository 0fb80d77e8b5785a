import Verif.Model.Kernels
import Verif.Model.Kaiser
import Verif.SpecKaiser

/-!
The filters whose kernels are not negative, and what has to hold of the mathematical library for that; no code here.
-/

namespace PicScale.Spec

/-- Bounds on the mathematical library: cosines lie in `[-1, 1]`, exponentials and square roots are not negative, the
square root behaves on `[0, 1]`, and the Kaiser window is what the series of `src/math/kaiser.rs` adds up to. -/
structure LibmBounds (L : Lib) : Prop where
  cos : ∀ x, -1 ≤ L.cos x ∧ L.cos x ≤ 1
  exp : ∀ x, 0 ≤ L.exp x
  sqrt : ∀ x, 0 ≤ L.sqrt x
  root : SqrtLike L.sqrt
  kaiser : ∀ x, 0 ≤ x → ∃ fuel, kaiserWindow F32.rnd L.sqrt fuel x = some (L.kaiser x)

end PicScale.Spec

namespace PicScale

/-- Filters with kernels that are not negative, whatever the mathematical library returns. -/
def averaging : List ResamplingFunction := [.bilinear, .box, .area, .quadric, .ewaQuadric, .welch, .hann]

/-- Filters with kernels that are not negative if the mathematical library keeps its bounds. -/
def averagingLibm : List ResamplingFunction := [.hamming, .hanning, .gaussian, .kaiser]

/-- A filter that averages: its kernel is not negative. -/
def Averages (L : Lib) (r : ResamplingFunction) : Prop := r ∈ averaging ∨ r ∈ averagingLibm ∧ Spec.LibmBounds L

end PicScale
