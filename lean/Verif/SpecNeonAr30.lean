import Verif.SpecX86Ar30
import Verif.SpecNeon

/-!
What the NEON passes for packed 10-bit images compute, by arithmetic; no code here.
-/

namespace PicScale.Spec

/-- The pixel (counted from the start of a window of `n ≥ 1` pixels) that meets weight `k` in the NEON row handlers
without the `rdm` instructions. In the groups of eight pixel 5 is used twice and pixel 4 never; in the groups of four
that follow pixel 3 is used twice and pixel 1 never; the last pixels (one to four) are taken in order. -/
def tapNeon (n k : ℕ) : ℕ :=
  if k < (n - 1) / 8 * 8 then k / 8 * 8 + [0, 5, 1, 5, 2, 6, 3, 7].getD (k % 8) 0
  else if k < (n - 1) / 4 * 4 then k / 4 * 4 + [0, 3, 2, 3].getD (k % 4) 0
  else k

/-- The same for the handlers with the `rdm` instructions: the groups of eight are permuted, the other pixels are taken
in order. -/
def tapShuffled (n k : ℕ) : ℕ :=
  if k < (n - 1) / 8 * 8 then k / 8 * 8 + [0, 4, 1, 5, 2, 6, 3, 7].getD (k % 8) 0 else k

/-- `v / 2^s` to the nearest integer, halves up. -/
def nearestPow (s : ℕ) (v : ℤ) : ℤ := ⌊(v : ℚ) / 2 ^ s + 1 / 2⌋

/-- A sum of products of which each is rounded to a multiple of `1 / 16` (in units of the result; halves up); the sum
is rounded to the nearest integer, halves up, and clamped. -/
def fixedSixteenth (hi n : ℕ) (w : ℕ → ℤ) (p : ℕ → ℕ) : ℕ :=
  clamp hi (nearestPow 4 (∑ k ∈ Finset.range n, nearestPow 11 (w k * (p k : ℤ))))

/-- The same with multiples of `1 / 32`. -/
def fixedThirtySecond (hi n : ℕ) (w : ℕ → ℤ) (p : ℕ → ℕ) : ℕ :=
  clamp hi (nearestPow 5 (∑ k ∈ Finset.range n, nearestPow 10 (w k * (p k : ℤ))))

/-- The first column of the tail of a row of `width` columns handled in blocks of eight while more than eight are left. -/
def tailColumn (width : ℕ) : ℕ := (width - 1) / 8 * 8

/-- Two separable passes, vertical first, whose results may depend on the position: `vf y x` and `hf y x` combine the
values of the windows that start at row `vs y`, column `hs x`. -/
def separableAt (sw sh dw dh : ℕ) (vs : ℕ → ℕ) (vf : ℕ → ℕ → (ℕ → ℕ) → ℕ) (hs : ℕ → ℕ) (hf : ℕ → ℕ → (ℕ → ℕ) → ℕ)
    (pix : ℕ → ℕ → ℕ) (y x : ℕ) : ℕ :=
  let mid := fun y x => if sh = dh then pix y x else vf y x fun k => pix (vs y + k) x
  if sw = dw then mid y x else hf y x fun k => mid y (hs x + k)

end PicScale.Spec
