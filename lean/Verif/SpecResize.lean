import Verif.SpecTable

/-!
What a separable resize is, in terms of samples; no code here.
-/

namespace PicScale.Spec

/-- The sample of channel `c` of pixel `(x, y)`, `d` outside the buffer. -/
def pxD {S : Type} (d : S) (buf : List S) (stride N y x c : ℕ) : S := (sample buf stride N y x c).getD d

/-- Separable resize of one channel `p y x` from `sh × sw` to `dh × dw`, at output `(y, x)`:
first filter columns (`vv i q` combines the samples `q 0, q 1, …` of the window of output row `i`, which
starts at source row `vs i`), then rows (`hv`, `hs` likewise); a dimension that does not change is not
filtered. -/
def separable {S : Type} (sw sh dw dh : ℕ) (vs : ℕ → ℕ) (vv : ℕ → (ℕ → S) → S) (hs : ℕ → ℕ)
    (hv : ℕ → (ℕ → S) → S) (p : ℕ → ℕ → S) (y x : ℕ) : S :=
  let col := fun x' => if sh = dh then p y x' else vv y (fun k => p (vs y + k) x')
  if sw = dw then col x else hv x (fun k => col (hs x + k))

/-- One fixed point pass value, truncated (vertical): weights `w` of `n` taps in units of `2^-15`. -/
def fixedFloor (hi n : ℕ) (w : ℕ → ℤ) (p : ℕ → ℕ) : ℕ := clamp hi (fixFloor (wsum n w (fun k => (p k : ℤ))))

/-- One fixed point pass value, rounded to nearest (horizontal). -/
def fixedRound (hi n : ℕ) (w : ℕ → ℤ) (p : ℕ → ℕ) : ℕ := clamp hi (fixRound (wsum n w (fun k => (p k : ℤ))))

end PicScale.Spec
