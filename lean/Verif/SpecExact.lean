import Verif.SpecAccuracy
import Verif.SpecResize

/-!
The ideal resize of 8-bit samples: exact weighted sums over the rationals, clamped to `0 … 255` after each pass, never
rounded. And the error two passes may add up to. No code here.
-/

namespace PicScale.Spec

open Finset

/-- One ideal pass value. -/
def idealPass (n : ℕ) (w : ℕ → ℚ) (p : ℕ → ℚ) : ℚ := clampQ 255 (∑ k ∈ range n, w k * p k)

/-- The ideal resize: the windows of output row `i` start at `vs i`, have `vn i` taps with weights `vw i`; columns
likewise. -/
def idealResize (sw sh dw dh : ℕ) (vs vn : ℕ → ℕ) (vw : ℕ → ℕ → ℚ) (hs hn : ℕ → ℕ) (hw : ℕ → ℕ → ℚ)
    (p : ℕ → ℕ → ℚ) (y x : ℕ) : ℚ :=
  separable sw sh dw dh vs (fun i q => idealPass (vn i) (vw i) q) hs (fun i q => idealPass (hn i) (hw i) q) p y x

/-- Error of two passes with errors `ev`, `eh`: the vertical error is multiplied by the absolute horizontal weights. -/
def twoPassErr (sw sh dw dh : ℕ) (ev eh absH : ℚ) : ℚ :=
  (if sh = dh then 0 else ev) * (if sw = dw then 1 else absH) + (if sw = dw then 0 else eh)

/-- Error of a pass over `n` taps that rounds the fixed point sum to nearest. -/
def errRound (n : ℕ) : ℚ := 1 / 2 + n * 255 / 32768
/-- Error of a pass over `n` taps that truncates the fixed point sum. -/
def errFloor (n : ℕ) : ℚ := 1 + n * 255 / 32768
/-- Error of a low precision pass over `n` taps with absolute weights adding up to `A`. -/
def errLow (n : ℕ) (A : ℚ) : ℚ := 1 / 2 + n / 128 + n * 255 / 32768 + 63 / 64 * (A + n / 32768)

end PicScale.Spec
