import Mathlib.Algebra.BigOperators.Group.Finset.Basic
import Mathlib.Data.Rat.Floor

/-!
The specification vocabulary. Nothing here mentions the code: an image buffer with a row stride,
its samples, weighted sums, rounding and clamping.
-/

namespace PicScale.Spec

open Finset

/-- The sample of channel `c` of pixel `(x, y)` of an `N`-channel image whose rows start every
`stride` elements of `buf` (`none` if outside the buffer). -/
def sample {α : Type _} (buf : List α) (stride N y x c : ℕ) : Option α := buf[y * stride + x * N + c]?

/-- The same, as a total function on integer samples (0 outside). -/
def px (buf : List ℕ) (stride N y x c : ℕ) : ℤ := ((buf[y * stride + x * N + c]?).getD 0 : ℕ)

/-- Weighted sum of the `n` samples `p 0 .. p (n-1)`. -/
def wsum (n : ℕ) (w p : ℕ → ℤ) : ℤ := ∑ k ∈ range n, w k * p k

/-- Clamp an integer to `0 .. hi`. -/
def clamp (hi : ℕ) (v : ℤ) : ℕ := (max 0 (min v hi)).toNat

/-- Divide a fixed point value (15 fractional bits) rounding half up. -/
def fixRound (v : ℤ) : ℤ := ⌊((v : ℚ) / 32768 + 1 / 2)⌋

/-- Divide a fixed point value (15 fractional bits) rounding down. -/
def fixFloor (v : ℤ) : ℤ := ⌊((v : ℚ) / 32768)⌋

/-- Buffer position `p` belongs to some pixel of a `width × height` image. -/
def IsPixelPos (stride N width height p : ℕ) : Prop :=
  ∃ y x c, y < height ∧ x < width ∧ c < N ∧ p = y * stride + x * N + c

end PicScale.Spec
