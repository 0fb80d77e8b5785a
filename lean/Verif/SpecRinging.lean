import Verif.SpecAverages

/-!
The filters and size pairs for which no accumulator of a resize overflows; no code here.
-/

namespace PicScale

/-- The cubic filters with a support of two pixels. -/
def cubics : List ResamplingFunction := [.cubic, .mitchellNetravalli, .catmullRom, .hermite, .bSpline, .bicubic]

/-- The cubic filters, and the two Robidoux filters if the library's `√2` is the binary32 number nearest to it. -/
def Cubics (L : Lib) (r : ResamplingFunction) : Prop :=
  r ∈ cubics ∨ r ∈ [ResamplingFunction.robidoux, .robidouxSharp] ∧ L.sqrt2 = 11863283 / 8388608

/-- The filters whose window does not grow when an image is reduced. -/
def fixedWindows : List ResamplingFunction := [.spline16, .spline36, .spline64]

/-- A filter and a pair of sizes whose weights cannot add up to much: an averaging filter; a cubic filter and at most
`2^15` source pixels; a filter with a fixed window; any filter if the image is not reduced. -/
def Tame (L : Lib) (r : ResamplingFunction) (inn out : ℕ) : Prop :=
  Averages L r ∨ (Cubics L r ∧ inn ≤ 2 ^ 15) ∨ r ∈ fixedWindows ∨ inn ≤ out

end PicScale
