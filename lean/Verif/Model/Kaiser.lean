import Verif.Model.F32
import Mathlib.Data.Rat.Defs

/-!
`src/math/kaiser.rs`: the Kaiser window, whose Bessel function is a series summed by a `while` loop until the next term
is small. The loop is given fuel; `none` means it has not ended when the fuel has.

Not modelled: infinities and NaN (so the argument of the window is not negative enough to overflow, and `1 - x * x` is not
negative: `x > 1` is caught before). The literals are `f64` constants converted to `f32`; the model rounds the decimal
once.
-/

namespace PicScale

variable (ρ : ℚ → ℚ)

/-- The loop of `bessel_i0`, `src/math/kaiser.rs:45-49`, with the variables `s`, `t` and `i` of the code. -/
def besselLoop (y : ℚ) : ℕ → ℚ → ℚ → ℚ → Option ℚ
  | 0, _, _, _ => none
  | n + 1, s, t, i =>
    if ρ (1 / 10 ^ 12) < t then besselLoop y n (ρ (s + t)) (ρ (t * ρ (y / ρ (i * i)))) (ρ (i + 1))
    else some s

/-- `bessel_i0`, `src/math/kaiser.rs:34-51`. -/
def besselI0 (fuel : ℕ) (x : ℚ) : Option ℚ :=
  let y := ρ (ρ (x * x) / 4)
  besselLoop ρ y fuel 1 y 2

/-- `kaiser`, `src/math/kaiser.rs:54-74`; `sqrt` is `Float::sqrt`. -/
def kaiserWindow (sqrt : ℚ → ℚ) (fuel : ℕ) (x : ℚ) : Option ℚ :=
  if 1 < x then some 0
  else do
    let b ← besselI0 ρ fuel (ρ (633 / 100))
    let i0a := ρ (1 / b)
    let v ← besselI0 ρ fuel (ρ (ρ (633 / 100) * sqrt (ρ (1 - ρ (x * x)))))
    some (ρ (v * i0a))

end PicScale
