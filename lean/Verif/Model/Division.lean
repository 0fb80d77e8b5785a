import Mathlib.Algebra.Order.Ring.Rat

/-!
Division. In Lean `x / 0 = 0`; in Rust an integer division by zero panics and a floating point one gives an infinity
or NaN. So that no theorem can rest on `x / 0 = 0`, the quotients that the code guards against a zero divisor are
modelled with an unspecified result for it.
-/

namespace PicScale

/-- What a floating point division by zero leaves: some number, nothing is known of it. -/
opaque quotientByZero : ℚ
/-- What an integer division by zero leaves (the code panics): some number, nothing is known of it. -/
opaque natQuotientByZero : ℕ

/-- `a / b` of floating point numbers. -/
def fdiv (a b : ℚ) : ℚ := if b = 0 then quotientByZero else a / b
/-- `a / b` of unsigned integers. -/
def ndiv (a b : ℕ) : ℕ := if b = 0 then natQuotientByZero else a / b

theorem fdiv_eq {a b : ℚ} (h : b ≠ 0) : fdiv a b = a / b := if_neg h
theorem ndiv_eq {a b : ℕ} (h : b ≠ 0) : ndiv a b = a / b := if_neg h

end PicScale
