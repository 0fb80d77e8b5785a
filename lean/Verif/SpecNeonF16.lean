import Verif.SpecF16
import Verif.SpecFloatErr
import Verif.Model.NeonF16

/-!
What resizes of 16-bit floating point images do on AArch64; no code here.
-/

namespace PicScale

open Spec

variable {H : Type}

namespace Spec

/-- A window of `n` halves `p` with weights `w`: added left to right with fused multiply-adds in binary32, then
narrowed (`portable`, `base`); the same with the weights rounded to halves (`fhm`); or with fused multiply-adds in
halves throughout (`full`; `mla acc a b`). -/
def neonHalfSum (widen : H → ℚ) (narrow : ℚ → H) (zero : H) (mla : H → H → H → H) (path : HalfPath) (p : ℕ → H)
    (w : ℕ → ℚ) (n : ℕ) : H :=
  match path with
  | .portable | .base => narrow ((HalfSum.left true).sum32 (fun k => widen (p k)) w n)
  | .fhm => narrow ((HalfSum.left true).sum32 (fun k => widen (p k)) (fun k => widen (narrow (w k))) n)
  | .full => chain mla zero p (fun k => narrow (w k)) n

/-- Tap `k` of a window of `n` RGBA pixels is multiplied with this pixel of the window. In steps of four taps the
fourth weight meets the second pixel. Rows in groups of four (`four`) use steps of eight first, which are right. -/
def rgbaPixelUsed (four : Bool) (n k : ℕ) : ℕ :=
  if (four = true → 8 * ((n - 1) / 8) ≤ k) ∧ k < 4 * ((n - 1) / 4) ∧ k % 4 = 3 then k - 2 else k

/-- Tap `k` of a window of `n` RGB pixels, for channel `c`, is multiplied with this pixel and channel of the window
when the sums are in halves. In steps of four taps, weights 2 and 3 meet samples counted from the start of the step;
in single steps the third channel is the first. -/
def rgbFastUsed (n k c : ℕ) : ℕ × ℕ :=
  if k < 4 * ((n - 1) / 4) then
    (if k % 4 = 2 ∧ c = 2 then (k - 2, 0)
    else if k % 4 = 3 then (if c = 2 then (k - 2, 0) else (k - 3, c + 1))
    else (k, c))
  else if 2 * ((n - 1) / 2) ≤ k ∧ c = 2 then (k, 0)
  else (k, c)

/-- Pixel and channel that the horizontal pass of a path multiplies with weight `k`. -/
def tapUsed (path : HalfPath) (N : ℕ) (four : Bool) (n k c : ℕ) : ℕ × ℕ :=
  if path = .portable then (k, c)
  else if N = 4 then (rgbaPixelUsed four n k, c)
  else if path = .full then rgbFastUsed n k c
  else (k, c)

end Spec

namespace Spec

/-- Error of a sum of `k` fused multiply-adds in halves, if the magnitudes of the products add up to `X`: every
addition rounds a number of at most `X` plus the error so far. -/
def fullErr (X : ℚ) : ℕ → ℚ
  | 0 => 0
  | k + 1 => fullErr X k + halfErr (X + fullErr X k)

/-- Error of one pass of `n` taps whose products have magnitudes of sum `X`. -/
def neonPassErr (path : HalfPath) (n : ℕ) (X : ℚ) : ℚ :=
  if path = .full then fullErr X n else floatErr n X + halfErr (X + floatErr n X)

/-- No tap of a horizontal window of `n` pixels is misplaced: one and two channels, three channels unless the sums
are in halves; four channels without `f16c`, for up to four pixels, or in a group of four rows (`four`) for
1–4, 9–12, 17–20, … pixels. -/
def TapsRight (cpu : NeonHalfCpu) (st : Workload) (N n : ℕ) (four : Prop) : Prop :=
  N ≤ 2 ∨ (N = 3 ∧ ¬ (st = .preferSpeed ∧ cpu.fp16 = true)) ∨
    (N = 4 ∧ (cpu.f16c = false ∨ n ≤ 4 ∨ four ∧ (n - 1) % 8 < 4))

end Spec

/-- The sum of a window on AArch64, for given conversions and half arithmetic. -/
def HalfOps.neonSum (o : HalfOps H ℚ) (h : VecOps H) (path : HalfPath) (p : ℕ → H) (w : ℕ → ℚ) (n : ℕ) : H :=
  neonHalfSum o.widen o.narrow h.zero (fun acc a b => h.fma a b acc) path p w n

/-- The weight that a path multiplies with, for weight `w` of the table. -/
def F16.weightUsed (path : HalfPath) (w : ℚ) : ℚ := if path = .portable ∨ path = .base then w else F16.dec (F16.enc w)

end PicScale
