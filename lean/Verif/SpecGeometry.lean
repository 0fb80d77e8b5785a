import Mathlib.Data.Rat.Floor
import Mathlib.Algebra.BigOperators.Group.Finset.Basic
import Verif.SpecTable

/-!
Geometry of a resize along one dimension, independent of the code: the ratio of the sizes, and which
source pixels lie within a given distance of an output pixel's centre.

Source pixel `k` covers `[k, k + 1)` of the source and has its centre at `k + 1/2`; output pixel `i` of `out`
has its centre at `(i + 1/2) * inn / out` in source coordinates.
-/

namespace PicScale.Spec

/-- `inn / out = P / 2^t` with sizes small enough that multiples of `2^-(t+1)` inside the image are binary32
numbers: whole-number reductions (`t = 0`), enlargements by powers of two (`P = 1`), and mixtures. -/
structure DyadicRatio (inn out P t : ℕ) : Prop where
  inn_pos : 1 ≤ inn
  out_pos : 1 ≤ out
  ratio : inn * 2 ^ t = out * P
  small : inn * 2 ^ (t + 1) ≤ 2 ^ 24

/-- Centre of output pixel `i`, in source coordinates. -/
def centre (inn out i : ℕ) : ℚ := (i + 1 / 2) * (inn / out)

/-- Window `b` contains every source pixel whose centre is closer than `d` to `c`. -/
def Covers (inn : ℕ) (b : Bounds) (c d : ℚ) : Prop :=
  ∀ k : ℕ, k < inn → |(k + 1 / 2 : ℚ) - c| < d → b.start ≤ k ∧ k < b.start + b.size

/-- Window `b` does not touch the edges of a source of `inn` pixels. -/
def Inner (inn : ℕ) (b : Bounds) : Prop := 0 < b.start ∧ b.start + b.size < inn

/-- The window `b` of output pixel `i` contains every source pixel to which the kernel `K`, stretched by the
reduction ratio, gives a non-zero weight. -/
def Complete (K : ℚ → ℚ) (inn out i : ℕ) (b : Bounds) : Prop :=
  ∀ k : ℕ, k < inn → K (|(k + 1 / 2 : ℚ) - centre inn out i| / max 1 ((inn : ℚ) / out)) ≠ 0 →
    b.start ≤ k ∧ k < b.start + b.size

/-- Linear interpolation of a row `p` of `n` pixels enlarged `T` times, at output pixel `T k + j`: its centre lies at
`k + (2 j + 1) / (2 T)`, between the centres of pixels `k - 1` and `k` or between those of `k` and `k + 1`; outside
the outermost centres the row is constant. Rounded to nearest, halves up. -/
def linearAt (p : ℕ → ℕ) (n T k j : ℕ) : ℕ :=
  let s := 2 * j + 1
  if s < T then
    if k = 0 then p 0 else ((T - s) * p (k - 1) + (T + s) * p k + T) / (2 * T)
  else
    if k + 1 = n then p k else ((3 * T - s) * p k + (s - T) * p (k + 1) + T) / (2 * T)

/-- The mean of block `i` of `n` pixels, rounded to nearest, halves up. -/
def blockMean (p : ℕ → ℕ) (n i : ℕ) : ℕ := (2 * (∑ k ∈ Finset.range n, p (n * i + k)) + n) / (2 * n)

/-- The mean of pixels `a .. b - 1`. -/
def meanOf (p : ℕ → ℕ) (a b : ℕ) : ℚ := (∑ k ∈ Finset.range (b - a), (p (a + k) : ℚ)) / (b - a : ℕ)

/-- First source pixel averaged by `Box` and `Area` for output pixel `i` when the size is divided by `n`: `n / 2` pixels
before block `i`. -/
def boxFirst (n i : ℕ) : ℕ := (2 * i * n - n) / 2

/-- End of the pixels averaged: `2 n` pixels, or as many as there are. -/
def boxLast (inn n i : ℕ) : ℕ := min (if i = 0 then (3 * n + 1) / 2 else boxFirst n i + 2 * n) inn

end PicScale.Spec
