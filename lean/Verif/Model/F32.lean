import Mathlib.Data.Rat.Floor
import Mathlib.Algebra.Order.Ring.Rat
import Verif.Model.Division

/-!
IEEE-754 binary32 arithmetic over `ℚ`: every operation is the exact result rounded by `rnd`
(round to nearest, ties to even, 24 bit significand, gradual underflow at `2^-149`).
Not modelled: overflow to infinity (all quantities here are far below `2^127`), NaN, signed zero.
-/

namespace PicScale.F32

/-- `2^e` for an integer exponent, in a form the kernel evaluates quickly. -/
def pow2 (e : ℤ) : ℚ := if 0 ≤ e then ((2 ^ e.toNat : ℕ) : ℚ) else mkRat 1 (2 ^ (-e).toNat)

/-- `⌊log2 q⌋` for `q > 0`. -/
def ilog2 (q : ℚ) : ℤ :=
  let e : ℤ := (q.num.natAbs.log2 : ℤ) - (q.den.log2 : ℤ)
  if pow2 e ≤ q then e else e - 1

/-- Nearest integer, ties to even. -/
def rhe (q : ℚ) : ℤ :=
  let f := q.num / q.den
  let r := q.num % q.den
  if 2 * r < q.den then f
  else if (q.den : ℤ) < 2 * r then f + 1
  else if f % 2 = 0 then f else f + 1

/-- Exponent of the last significand bit used for `q`. -/
def qexp (q : ℚ) : ℤ := max (ilog2 |q| - 23) (-149)

/-- Round to binary32. -/
def rnd (q : ℚ) : ℚ := if q = 0 then 0 else (rhe (q / pow2 (qexp q)) : ℚ) * pow2 (qexp q)

/-- `a + b` in binary32. -/
def add (a b : ℚ) : ℚ := rnd (a + b)
/-- `a - b` in binary32. -/
def sub (a b : ℚ) : ℚ := rnd (a - b)
/-- `a * b` in binary32. -/
def mul (a b : ℚ) : ℚ := rnd (a * b)
/-- `a / b` in binary32. -/
def div (a b : ℚ) : ℚ := rnd (fdiv a b)
theorem div_eq {a b : ℚ} (h : b ≠ 0) : div a b = rnd (a / b) := by unfold div; rw [fdiv_eq h]
/-- `n as f32` for an integer `n`. -/
def ofNat (n : ℕ) : ℚ := rnd n
/-- `x.round()`: nearest integer, ties away from zero. -/
def round (q : ℚ) : ℤ := if 0 ≤ q then ⌊q + 1 / 2⌋ else -⌊-q + 1 / 2⌋
/-- `x as usize` for a value without fractional part: negative values saturate to 0. -/
def toUsize (z : ℤ) : ℕ := z.toNat

end PicScale.F32
