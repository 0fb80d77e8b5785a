import Verif.SpecAr30
import Verif.SpecX86U16

/-!
What the SSE4.1 passes for packed 10-bit images compute, by arithmetic; no code here.
-/

namespace PicScale.Spec

/-- The pixel (counted from the start of a window of `n ≥ 1` pixels) that meets weight `k` in the SSE4.1 row
handlers. In the groups of eight, pixels 2, 3 and 4, 5 are exchanged; in the groups of four that follow, pixels
0 and 2 are used twice; the last pixels (one to four) are taken in order. -/
def tapPixel (n k : ℕ) : ℕ :=
  if k < (n - 1) / 8 * 8 then
    if k % 8 = 2 ∨ k % 8 = 3 then k + 2 else if k % 8 = 4 ∨ k % 8 = 5 then k - 2 else k
  else if k < (n - 1) / 4 * 4 then k - k % 2
  else k

/-- Nearest integer to `v / 2^15`, halves rounded down. -/
def fixDown (v : ℤ) : ℤ := (v + (2 ^ 14 - 1)) / 2 ^ 15

/-- Nearest integer to `v / 2^16`, halves rounded down: half of what `fixDown` gives. -/
def fixHalf (v : ℤ) : ℤ := (v + (2 ^ 15 - 1)) / 2 ^ 16

/-- Fixed point sum of `n` taps, halves rounded down, clamped to `0 … hi`. -/
def fixedDown (hi n : ℕ) (w : ℕ → ℤ) (p : ℕ → ℕ) : ℕ := clamp hi (fixDown (wsum n w fun k => (p k : ℤ)))

/-- The same at half the scale. -/
def fixedHalf (hi n : ℕ) (w : ℕ → ℤ) (p : ℕ → ℕ) : ℕ := clamp hi (fixHalf (wsum n w fun k => (p k : ℤ)))

/-- One component (`c`: 0 red, 1 green, 2 blue) of one pixel written by the SSE4.1 row handlers, from the pixels
`p` of the window. `grouped`: is the row one of a group of four? -/
def rowSse30 (grouped : Bool) (c n : ℕ) (w : ℕ → ℤ) (p : ℕ → ℕ) : ℕ :=
  if grouped then fixedDown 1023 n w (fun k => p (tapPixel n k))
  else if c = 1 then 0
  else fixedHalf 1023 n w (fun k => p (tapPixel n k))

end PicScale.Spec
