import Verif.Lemmas.F16Bits
import Mathlib.Tactic.IntervalCases

/-! The conversions of `src/sse/f16_utils.rs`. -/

namespace PicScale.F16

open F32

/-! ### bit fields -/

theorem and_exp (h : ℕ) : (h &&& 0x7C00) >>> 10 = h / 1024 % 32 := by
  rw [Nat.shiftRight_and_distrib, Nat.shiftRight_eq_div_pow, show 0x7C00 >>> 10 = 2 ^ 5 - 1 from rfl,
    Nat.and_two_pow_sub_one_eq_mod]

theorem and_frac (h : ℕ) : h &&& 0x03FF = h % 1024 := Nat.and_two_pow_sub_one_eq_mod h 10

theorem and_sign (h : ℕ) : h &&& 0x8000 = (h / 32768 % 2) * 32768 := by
  have h1 : (h &&& 0x8000) >>> 15 = h / 32768 % 2 := by
    rw [Nat.shiftRight_and_distrib, Nat.shiftRight_eq_div_pow, show 0x8000 >>> 15 = 2 ^ 1 - 1 from rfl,
      Nat.and_two_pow_sub_one_eq_mod]
  have h2 : (h &&& 0x8000) % 2 ^ 15 = 0 := by
    rw [Nat.and_mod_two_pow, show 0x8000 % 2 ^ 15 = 0 from rfl, Nat.and_zero]
  rw [Nat.shiftRight_eq_div_pow] at h1
  omega

theorem or_add {a b : ℕ} (n : ℕ) (h : b < 2 ^ n) : (a <<< n) ||| b = a * 2 ^ n + b := by
  rw [← Nat.shiftLeft_add_eq_or_of_lt h, Nat.shiftLeft_eq]

/-- The magnitude bits of the widened number. -/
def widenMag (h : ℕ) : ℕ :=
  if h / 1024 % 32 = 0 then
    if h % 1024 = 0 then 0
    else (103 + (h % 1024).log2) * 8388608 + (h % 1024 * 2 ^ (10 - (h % 1024).log2)) % 1024 * 8192
  else (h / 1024 % 32 + 112) * 8388608 + h % 1024 * 8192

theorem log2_lt_10 {m : ℕ} (h0 : m ≠ 0) (h : m < 1024) : m.log2 < 10 := (Nat.log2_lt h0).2 h

theorem widenMag_lt (h : ℕ) : widenMag h < 2147483648 := by
  unfold widenMag
  split_ifs with h1 h2
  · norm_num
  · have := log2_lt_10 h2 (by omega)
    have : (h % 1024 * 2 ^ (10 - (h % 1024).log2)) % 1024 < 1024 := Nat.mod_lt _ (by norm_num)
    omega
  · omega

theorem log2_mul (m : ℕ) (h0 : m ≠ 0) (k : ℕ) : (m * 2 ^ k).log2 = m.log2 + k := by
  have h1 := (Nat.log2_eq_iff h0).1 rfl
  apply (Nat.log2_eq_iff (by positivity)).2
  rw [show m.log2 + k + 1 = (m.log2 + 1) + k by ring, pow_add, pow_add]
  exact ⟨Nat.mul_le_mul_right _ h1.1, Nat.mul_lt_mul_of_pos_right h1.2 (by positivity)⟩

theorem widenFb_eq {h : ℕ} (hh : h < 65536) : widenFb h = (h / 32768) * 2147483648 + widenMag h := by
  have hs : h / 32768 % 2 = h / 32768 := by omega
  have e1 : (h &&& 0x8000) <<< 16 = (h / 32768) <<< 31 := by
    rw [and_sign, hs, Nat.shiftLeft_eq, Nat.shiftLeft_eq]
    ring
  have hlt := widenMag_lt h
  unfold widenFb
  simp only [and_exp, and_frac, e1]
  rw [Nat.or_assoc]
  suffices H : ((if h / 1024 % 32 = 0 then 0 else (h / 1024 % 32 + 112) <<< 23 ||| (h % 1024) <<< 13) |||
      if h / 1024 % 32 = 0 ∧ (h % 1024) <<< 13 ≠ 0 then
        ((if (h % 1024) <<< 13 = 0 then 0 else 127 + ((h % 1024) <<< 13).log2) - 37) <<< 23 |||
          (h % 1024) <<< 13 <<< (150 - if (h % 1024) <<< 13 = 0 then 0 else 127 + ((h % 1024) <<< 13).log2) &&& 0x007FE000
      else 0) = widenMag h by
    rw [H]
    exact or_add 31 hlt
  have hz : (h % 1024) <<< 13 = 0 ↔ h % 1024 = 0 := by
    rw [Nat.shiftLeft_eq]
    omega
  unfold widenMag
  by_cases h1 : h / 1024 % 32 = 0
  · rw [if_pos h1, if_pos h1, Nat.zero_or]
    by_cases h2 : h % 1024 = 0
    · rw [if_pos h2, if_neg (by rw [hz.2 h2]; simp)]
    · rw [if_neg h2, if_pos ⟨h1, fun e => h2 (hz.1 e)⟩, if_neg (fun e => h2 (hz.1 e))]
      have hl : ((h % 1024) <<< 13).log2 = (h % 1024).log2 + 13 := by
        rw [Nat.shiftLeft_eq]; exact log2_mul _ h2 13
      have hL := log2_lt_10 h2 (by omega)
      rw [hl]
      generalize (h % 1024).log2 = L at hL ⊢
      rw [show 127 + (L + 13) - 37 = 103 + L by omega, show 150 - (127 + (L + 13)) = 10 - L by omega]
      rw [show (h % 1024) <<< 13 <<< (10 - L) = ((h % 1024) <<< (10 - L)) <<< 13 by
        rw [← Nat.shiftLeft_add, ← Nat.shiftLeft_add, Nat.add_comm]]
      rw [show (0x007FE000 : ℕ) = 1023 <<< 13 from rfl, ← Nat.shiftLeft_and_distrib, show (1023 : ℕ) = 2 ^ 10 - 1 from rfl,
        Nat.and_two_pow_sub_one_eq_mod, Nat.shiftLeft_eq _ 13, Nat.shiftLeft_eq _ (10 - L)]
      have : (h % 1024 * 2 ^ (10 - L)) % 2 ^ 10 < 1024 := Nat.mod_lt _ (by norm_num)
      rw [or_add 23 (by omega)]
      norm_num
  · rw [if_neg h1, if_neg h1, if_neg (fun e => h1 e.1), Nat.or_zero, Nat.shiftLeft_eq _ 13]
    rw [or_add 23 (by omega)]
    norm_num

/-! ### widening -/

theorem dec32_widenMag {h : ℕ} (hh : h < 31744) : dec32 (widenMag h) = dec h := by
  have e32 : h / 1024 % 32 = h / 1024 := by omega
  unfold widenMag
  rw [e32]
  by_cases h1 : h / 1024 = 0
  · have hm : h % 1024 = h := by omega
    rw [if_pos h1, hm, dec_small (by omega)]
    by_cases h2 : h = 0
    · subst h2
      norm_num [dec32]
    · rw [if_neg h2]
      have hl := (Nat.log2_eq_iff h2).1 rfl
      have hL := log2_lt_10 h2 (by omega)
      generalize h.log2 = L at hl hL ⊢
      have key : 1024 ≤ h * 2 ^ (10 - L) ∧ h * 2 ^ (10 - L) < 2048 := by
        have e : 2 ^ L * 2 ^ (10 - L) = 1024 := by
          rw [← pow_add, show L + (10 - L) = 10 by omega]
          norm_num
        constructor
        · rw [← e]; exact Nat.mul_le_mul_right _ hl.1
        · have : 2 ^ (L + 1) * 2 ^ (10 - L) = 2048 := by rw [pow_succ, mul_right_comm, e]; norm_num
          rw [← this]; exact Nat.mul_lt_mul_of_pos_right hl.2 (by positivity)
      have hmod : h * 2 ^ (10 - L) % 1024 = h * 2 ^ (10 - L) - 1024 := by omega
      rw [hmod, dec32_lin (e := 103 + L) (by omega) (by omega) (by omega) (by omega)]
      rw [show (103 + L) * 8388608 + (h * 2 ^ (10 - L) - 1024) * 8192 - (103 + L) * 8388608 =
        (h * 2 ^ (10 - L) - 1024) * 8192 by omega, Nat.cast_mul, Nat.cast_sub key.1]
      push_cast
      have hz : ((2 : ℚ) ^ (10 - L) : ℚ) = (2 : ℚ) ^ ((10 : ℤ) - L) := by
        rw [← zpow_natCast, Nat.cast_sub (by omega)]
        norm_num
      rw [hz, show (103 : ℤ) + L - 150 = -(10 - L) + (-37) by ring, zpow_add₀ (by norm_num), zpow_neg]
      have hne : (2 : ℚ) ^ ((10 : ℤ) - L) ≠ 0 := by positivity
      field_simp
      norm_num
      ring
  · rw [if_neg h1, dec_eq_dec32 (by omega) (by omega)]
    refine congrArg dec32 ?_
    generalize hq : h / 1024 = a
    generalize hr : h % 1024 = b
    have : h = 1024 * a + b := by rw [← hq, ← hr]; exact (Nat.div_add_mod h 1024).symm
    subst this
    ring

/-- The fallback widens every finite half exactly. -/
theorem dec32_widenFb {h : ℕ} (hh : h < 65536) (hf : h / 1024 % 32 < 31) : dec32 (widenFb h) = dec h := by
  rw [widenFb_eq hh]
  have hw := widenMag_lt h
  rcases Nat.lt_or_ge h 32768 with h' | h'
  · rw [Nat.div_eq_of_lt h', Nat.zero_mul, Nat.zero_add, dec32_widenMag (by omega)]
  · obtain ⟨k, rfl⟩ := Nat.exists_eq_add_of_le h'
    have e : widenMag (32768 + k) = widenMag k := by
      unfold widenMag
      rw [show (32768 + k) / 1024 % 32 = k / 1024 % 32 by omega, show (32768 + k) % 1024 = k % 1024 by omega]
    rw [show (32768 + k) / 32768 = 1 by omega, Nat.one_mul, e, dec32_neg (widenMag_lt k), dec_neg (by omega),
      dec32_widenMag (by omega)]

/-! ### narrowing -/

theorem narrowFb_eq (x : ℕ) : narrowFb x =
    let b := (x + 4096) % 2 ^ 32
    let e := b / 8388608 % 256
    let m := b % 8388608
    if 143 < e then 32767
    else if 112 < e then (e - 112) * 1024 + m / 8192
    else if 101 < e then ((8384512 + m) / 2 ^ (125 - e) + 1) / 2
    else 0 := by
  unfold narrowFb
  have hE : ∀ b : ℕ, (b &&& 0x7F800000) >>> 23 = b / 8388608 % 256 := by
    intro b
    rw [Nat.shiftRight_and_distrib, Nat.shiftRight_eq_div_pow, show 0x7F800000 >>> 23 = 2 ^ 8 - 1 from rfl,
      Nat.and_two_pow_sub_one_eq_mod]
  have hM : ∀ b : ℕ, b &&& 0x007FFFFF = b % 8388608 := fun b => Nat.and_two_pow_sub_one_eq_mod b 23
  simp only [hE, hM]
  generalize (x + 0x00001000) % 2 ^ 32 = b
  have hm : b % 8388608 < 8388608 := Nat.mod_lt _ (by norm_num)
  have he : b / 8388608 % 256 < 256 := Nat.mod_lt _ (by norm_num)
  generalize b % 8388608 = m at hm ⊢
  generalize b / 8388608 % 256 = e at he ⊢
  have j1 : ((e - 112) <<< 10 &&& 0x7C00) ||| m >>> 13 = (e - 112) % 32 * 1024 + m / 8192 := by
    have h3 : m >>> 13 = m / 8192 := by rw [Nat.shiftRight_eq_div_pow]
    have h4 : (e - 112) <<< 10 &&& 0x7C00 = ((e - 112) % 32) <<< 10 := by
      rw [show (0x7C00 : ℕ) = 31 <<< 10 from rfl, ← Nat.shiftLeft_and_distrib, show (31 : ℕ) = 2 ^ 5 - 1 from rfl,
        Nat.and_two_pow_sub_one_eq_mod]
    rw [h3, h4, or_add 10 (by omega)]
    norm_num
  rw [j1]
  by_cases h1 : 143 < e
  · have h2 : 112 < e := by omega
    have h3 : ¬ (e < 113 ∧ 101 < e) := by omega
    simp only [h1, h2, h3, if_true, if_false, Nat.or_zero]
    have h5 : (e - 112) % 32 * 1024 + m / 8192 < 2 ^ 15 := by omega
    have h6 : (e - 112) % 32 * 1024 + m / 8192 ||| 0x7FFF = 32767 := by
      have := Nat.or_lt_two_pow h5 (show (0x7FFF : ℕ) < 2 ^ 15 by norm_num)
      have h7 : 0x7FFF ≤ (e - 112) % 32 * 1024 + m / 8192 ||| 0x7FFF := Nat.right_le_or
      omega
    rw [h6]
    norm_num
  · by_cases h2 : 112 < e
    · have h3 : ¬ (e < 113 ∧ 101 < e) := by omega
      simp only [h1, h2, h3, if_true, if_false, Nat.or_zero]
      rw [Nat.mod_eq_of_lt (by omega)]
      omega
    · by_cases h3 : 101 < e
      · have h4 : e < 113 ∧ 101 < e := by omega
        simp only [h1, h2, h3, h4, if_true, if_false, Nat.or_zero, Nat.zero_or, and_self, show e < 113 by omega]
        rw [Nat.shiftRight_eq_div_pow, Nat.shiftRight_eq_div_pow, pow_one]
        apply Nat.min_eq_right
        have : (0x007FF000 + m) / 2 ^ (125 - e) ≤ (0x007FF000 + m) / 2 ^ 13 :=
          Nat.div_le_div_left (Nat.pow_le_pow_right (by norm_num) (by omega)) (by positivity)
        omega
      · have h4 : ¬ (e < 113 ∧ 101 < e) := by omega
        simp only [h1, h2, h3, h4, if_false, Nat.or_zero]
        norm_num

end PicScale.F16
