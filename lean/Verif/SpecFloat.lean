import Mathlib.Algebra.Order.Ring.Rat
import Mathlib.Data.Rat.Floor

/-!
What a floating point pass computes, in terms of samples; no code here.
-/

namespace PicScale.Spec

/-- `mla (… (mla acc p₀ w₀) …) pₙ₋₁ wₙ₋₁`: accumulate `n` terms from left to right. -/
def chain {A : Type} (mla : A → A → A → A) (acc : A) (p w : ℕ → A) : ℕ → A
  | 0 => acc
  | n + 1 => mla (chain mla acc p w n) (p n) (w n)

/-- The left-to-right sum of `n ≥ 1` products: the first product, then one multiply-add per further
term. -/
def leftSum {A : Type} (mul : A → A → A) (mla : A → A → A → A) (p w : ℕ → A) (n : ℕ) : A :=
  chain mla (mul (p 0) (w 0)) (fun k => p (k + 1)) (fun k => w (k + 1)) (n - 1)

/-- Round up and clamp to the range of a `d`-bit sample. -/
def ceilClamp (d : ℕ) (v : ℚ) : ℕ := (max 0 (min ⌈v⌉ ((2 ^ d - 1 : ℕ) : ℤ))).toNat

end PicScale.Spec
