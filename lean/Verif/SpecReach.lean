import Verif.SpecGeometry
import Verif.Model.Kernels

/-!
How far a resize looks, as a table of the filters; independent of the code of the weights.
-/

namespace PicScale.Spec

/-- Source pixels per direction that a filter reads when the picture is not reduced. -/
def kernelWidth : ResamplingFunction → ℕ
  | .ewaHanning => 1
  | .hann | .lanczos3 | .lanczos3Jinc | .ewaLanczos3Jinc | .ginseng | .ewaGinseng | .ewaLanczosSharp
  | .ewaLanczosSoft | .haasnSoft | .lagrange3 => 3
  | .spline36 | .lanczos4 | .lanczos4Jinc | .ewaLanczos4Sharpest => 4
  | .spline64 | .lanczos6 | .lanczos6Jinc => 6
  | _ => 2

/-- By what factor the kernel is stretched: the reduction ratio, except for the splines of fixed size. -/
def stretch (r : ResamplingFunction) (inn out : ℕ) : ℚ :=
  if r ∈ [ResamplingFunction.spline16, .spline36, .spline64] then 1 else max ((inn : ℚ) / out) 1

/-- Source pixel `p` is at most half the stretched kernel, plus one pixel, from the centre of output pixel `i`. -/
def Reaches (r : ResamplingFunction) (inn out i p : ℕ) : Prop :=
  |(p + 1 / 2 : ℚ) - centre inn out i| ≤ kernelWidth r * stretch r inn out / 2 + 1

end PicScale.Spec
