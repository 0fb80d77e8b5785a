import Verif.Model.F16
import Verif.Model.F32

/-!
The bits of 16-bit floating point numbers: IEEE-754 binary16 and binary32 patterns, and the conversions that
`src/sse/f16_utils.rs` uses on CPUs without F16C.

A pattern is a natural number (below `2^16`, `2^32`). The values of the patterns with all exponent bits set
(infinities and NaN) are not in `ℚ`; where they matter, theorems talk about the patterns.
-/

namespace PicScale.F16

open F32

/-- Value of a finite half: sign bit, five exponent bits, ten fraction bits. -/
def dec (h : ℕ) : ℚ :=
  let e := h / 1024 % 32
  let m := h % 1024
  (if h / 32768 % 2 = 1 then -1 else 1) * (if e = 0 then m * pow2 (-24) else (1024 + m) * pow2 ((e : ℤ) - 25))

/-- Value of a finite single: sign bit, eight exponent bits, 23 fraction bits. -/
def dec32 (b : ℕ) : ℚ :=
  let e := b / 8388608 % 256
  let m := b % 8388608
  (if b / 2147483648 % 2 = 1 then -1 else 1) * (if e = 0 then m * pow2 (-149) else (8388608 + m) * pow2 ((e : ℤ) - 150))

/-- Exponent of the last fraction bit of a half near `q`. -/
def qexp16 (q : ℚ) : ℤ := max (ilog2 |q| - 10) (-24)

/-- IEEE conversion to half, round to nearest, ties to even: `v as f16`, `_mm_cvtps_ph`. Beyond the largest half
the pattern of infinity. (A negative number that rounds to zero gives zero, not minus zero.) -/
def enc (q : ℚ) : ℕ :=
  let mag := min 0x7C00 ((qexp16 q + 24).toNat * 1024 + (rhe (|q| / pow2 (qexp16 q))).toNat)
  if q = 0 then 0 else if q < 0 ∧ mag ≠ 0 then 0x8000 + mag else mag

/-- The pattern of a representable binary32 number below `2^128`. -/
def enc32 (q : ℚ) : ℕ :=
  if q = 0 then 0
  else (if q < 0 then 0x80000000 else 0) + ((qexp q + 149).toNat * 8388608 + (rhe (|q| / pow2 (qexp q))).toNat)

/-- One lane of `_mm_cvtph_ps_fallback`, `src/sse/f16_utils.rs:98-132`. `v` is the exponent field of the mantissa
converted to f32 (`_mm_cvtepi32_ps`, exact below `2^24`). The subtractions are only used where they do not wrap:
`v - 37` and `150 - v` with a zero exponent and a non-zero mantissa (`140 ≤ v ≤ 149`). -/
def widenFb (h : ℕ) : ℕ :=
  let exp := (h &&& 0x7C00) >>> 10
  let mantissa := (h &&& 0x03FF) <<< 13
  let v := if mantissa = 0 then 0 else 127 + mantissa.log2
  let j1 := (h &&& 0x8000) <<< 16
  let j2 := if exp = 0 then 0 else ((exp + 112) <<< 23) ||| mantissa
  let pvm := (v - 37) <<< 23
  let vgm := (mantissa <<< (150 - v)) &&& 0x007FE000
  let j3 := if exp = 0 ∧ mantissa ≠ 0 then pvm ||| vgm else 0
  j1 ||| j2 ||| j3

/-- One lane of `_mm_cvtps_ph_fallback`, `src/sse/f16_utils.rs:137-180`. The subtractions are only used where they
do not wrap; `_mm_packus_epi32` saturates to 16 bits. -/
def narrowFb (x : ℕ) : ℕ :=
  let b := (x + 0x00001000) % 2 ^ 32
  let e := (b &&& 0x7F800000) >>> 23
  let m := b &&& 0x007FFFFF
  let j1 := if 112 < e then (((e - 112) <<< 10) &&& 0x7C00) ||| (m >>> 13) else 0
  let v2 := (((0x007FF000 + m) >>> (125 - e)) + 1) >>> 1
  let j2 := if e < 113 ∧ 101 < e then v2 else 0
  let sat := if 143 < e then 0x7FFF else 0
  min 0xFFFF (j1 ||| j2 ||| sat)

/-- Halves as patterns, f32 registers as numbers. -/
def halfBits : HalfOps ℕ ℚ where
  arith := ratOps
  zeroH := 0
  widen := dec
  narrow := enc
  widenFb := fun h => dec32 (widenFb h)
  narrowFb := fun q => narrowFb (enc32 q)

end PicScale.F16
