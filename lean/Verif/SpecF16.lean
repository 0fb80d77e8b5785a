import Verif.SpecTable
import Verif.SpecX86F32
import Verif.Model.F16

/-!
What the resizes of 16-bit floating point images promise; no code here.
-/

namespace PicScale

variable {S : Type}

/-- Everything outside the pixels of `a` (row padding) went through `pad`. -/
def PaddingMapped (N : Nat) (pad : S → S) (a b : Image S) : Prop :=
  ∀ p, ¬ Spec.IsPixelPos (a.strideOf N) N a.width a.height p → b.buffer[p]? = a.buffer[p]?.map pad

theorem paddingMapped_id {N : Nat} {a b : Image S} : PaddingMapped N id a b ↔ PaddingKept N a b := by
  unfold PaddingMapped PaddingKept
  simp

namespace Spec

/-- How a vector unit adds up a window: in one chain, fused or not, or in two interleaved chains. -/
inductive HalfSum where
  /-- left to right -/
  | left (fused : Bool)
  /-- even and odd taps, then the two sums added -/
  | pairs (fused : Bool)

/-- A window of `n` samples `p` with weights `w`, added in binary32 (`mul`, `add`, `mla fused acc a b`). -/
def HalfSum.sum {A : Type} (mul add : A → A → A) (mla : Bool → A → A → A → A) (zero : A) (s : HalfSum) (p w : ℕ → A)
    (n : ℕ) : A :=
  match s with
  | .left f => leftSum mul (mla f) p w n
  | .pairs f => pairSum add (mla f) zero p w n

/-- The same with binary32 operations on numbers: every operation rounds, a fused multiply-add once. -/
def HalfSum.sum32 (s : HalfSum) (p w : ℕ → ℚ) (n : ℕ) : ℚ :=
  s.sum (fun a b => F32.rnd (a * b)) (fun a b => F32.rnd (a + b))
    (fun f acc a b => if f then F32.rnd (a * b + acc) else F32.rnd (F32.rnd (a * b) + acc)) 0 p w n

/-- Half an ulp: bound on the error of rounding a number of magnitude `v` to a half. -/
def halfErr (v : ℚ) : ℚ := v / 2 ^ 11 + 1 / 2 ^ 25

/-- A pattern of a finite half: neither infinity nor NaN. -/
def FiniteHalf (h : ℕ) : Prop := h < 65536 ∧ h / 1024 % 32 < 31

end Spec

open Spec

/-! ### which CPU adds how -/

/-- Order of the vertical sum on a CPU. -/
def vOrder (cpu : HalfCpu) : HalfSum :=
  .left (if cpu.avx2 && cpu.f16c then cpu.fma else if cpu.sse41 then false else cpu.fused)
/-- Order of the horizontal sum on a CPU. -/
def hOrder (cpu : HalfCpu) (N : ℕ) : HalfSum :=
  if N = 4 ∧ cpu.avx2 ∧ cpu.f16c then .pairs cpu.fma
  else if N = 4 ∧ cpu.sse41 then .left false
  else if N = 3 ∧ cpu.sse41 then .left (cpu.f16c && cpu.fma)
  else .left cpu.fused
/-- Does the vertical pass convert with IEEE conversions? -/
def vIeee (cpu : HalfCpu) : Bool := cpu.f16c || !cpu.sse41
/-- Does the horizontal pass? -/
def hIeee (cpu : HalfCpu) (N : ℕ) : Bool := cpu.f16c || !cpu.sse41 || decide (N ≤ 2)

end PicScale
