import Verif.SpecSimd

/-!
Which column of the source the x86 handlers for u16 images read for which position of a row; no code here.
-/

namespace PicScale.Spec

/-- Start of the group of samples that position `p` of a row of `n` samples belongs to, when the row is cut
into groups of 32 (if the handler has those), one of 16, one of 8, one of 4 and single samples. -/
def tailStart (n p : ℕ) : ℕ :=
  if p < n / 16 * 16 then n / 32 * 32
  else if p < n / 8 * 8 then n / 16 * 16
  else if p < n / 4 * 4 then n / 8 * 8
  else n / 4 * 4

/-- The column the handler with groups of `B` samples (16: SSE4.1, 32: AVX2) reads for position `p` of a row
of `n` samples: its own in the full groups, a position inside the *last full group* beyond them. -/
def readColumn (B n p : ℕ) : ℕ :=
  if p < n / B * B then p else n / B * B - B + (p - tailStart n p)

/-- Taps of eight pixels from `j` on, as (weight, pixel). -/
def taps8 (j : ℕ) : List (ℕ × ℕ) :=
  [(j + 3, j + 3), (j + 2, j + 2), (j + 1, j + 1), (j, j), (j + 7, j + 7), (j + 6, j + 6), (j + 5, j + 5), (j + 4, j + 4)]
/-- Taps of four pixels from `j` on: the weight of pixel `j` meets pixel `j + 1`. -/
def taps4 (j : ℕ) : List (ℕ × ℕ) := [(j + 3, j + 3), (j + 2, j + 2), (j + 1, j + 1), (j, j + 1)]
/-- Taps of two pixels from `j` on: both weights meet pixel `j`. -/
def taps2 (j : ℕ) : List (ℕ × ℕ) := [(j, j), (j + 1, j)]
/-- Taps of the pixels from `j` to `n`, one after the other. -/
def taps1 (j n : ℕ) : List (ℕ × ℕ) := (List.range (n - j)).map fun k => (j + k, j + k)

/-- What the SSE4.1 row handler for RGBA images of more than 12 bits adds up for a window of `n ≥ 1` pixels:
groups of eight, then four, two and single pixels. -/
def fpTaps (n : ℕ) : List (ℕ × ℕ) :=
  let j8 := (n - 1) / 8 * 8
  let j4 := if 4 < n - j8 then j8 + 4 else j8
  let j2 := if 2 < n - j4 then j4 + 2 else j4
  (List.range ((n - 1) / 8)).flatMap (fun i => taps8 (i * 8)) ++ (if 4 < n - j8 then taps4 j8 else []) ++
    (if 2 < n - j4 then taps2 j4 else []) ++ taps1 j2 n

end PicScale.Spec

namespace PicScale

/-- No accumulator of a window can reach `2^30` when source samples are at most `hi`. -/
def NoOverflow30At (fw : FilterWeights ℤ) (out hi : ℕ) : Prop :=
  ∀ i, i < out → (∑ k ∈ Finset.range (fw.bound i).size, |fw.weight i k|) * (hi : ℤ) + 2 ^ 14 < 2 ^ 30

end PicScale
