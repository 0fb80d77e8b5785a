import Verif.Model.F16Bits
import Verif.Lemmas.F32

/-! Bit patterns of halves and singles. -/

namespace PicScale.F16

open F32

/-! ### positive patterns -/

/-- Value of a non-negative half. -/
theorem dec_pos {h : ℕ} (hh : h < 32768) :
    dec h = if h / 1024 = 0 then (h : ℚ) * (2 : ℚ) ^ (-24 : ℤ) else (1024 + (h % 1024 : ℕ)) * (2 : ℚ) ^ (((h / 1024 : ℕ) : ℤ) - 25) := by
  unfold dec
  have h1 : h / 32768 % 2 = 0 := by omega
  have h2 : h / 1024 % 32 = h / 1024 := by omega
  simp only [h1, h2, pow2_eq]
  norm_num
  split_ifs with h3
  · rw [Nat.mod_eq_of_lt (by omega)]
  · rfl

theorem dec_neg {h : ℕ} (hh : h < 32768) : dec (32768 + h) = -dec h := by
  unfold dec
  have h1 : (32768 + h) / 32768 % 2 = 1 := by omega
  have h2 : h / 32768 % 2 = 0 := by omega
  have h3 : (32768 + h) / 1024 % 32 = h / 1024 % 32 := by omega
  have h4 : (32768 + h) % 1024 = h % 1024 := by omega
  simp only [h1, h2, h3, h4]
  norm_num
  split_ifs <;> rfl

theorem dec32_pos {b : ℕ} (hb : b < 2147483648) :
    dec32 b = if b / 8388608 = 0 then (b : ℚ) * (2 : ℚ) ^ (-149 : ℤ)
      else (8388608 + (b % 8388608 : ℕ)) * (2 : ℚ) ^ (((b / 8388608 : ℕ) : ℤ) - 150) := by
  unfold dec32
  have h1 : b / 2147483648 % 2 = 0 := by omega
  have h2 : b / 8388608 % 256 = b / 8388608 := by omega
  simp only [h1, h2, pow2_eq]
  norm_num
  split_ifs with h3
  · rw [Nat.mod_eq_of_lt (by omega)]
  · rfl

theorem dec32_neg {b : ℕ} (hb : b < 2147483648) : dec32 (2147483648 + b) = -dec32 b := by
  unfold dec32
  have h1 : (2147483648 + b) / 2147483648 % 2 = 1 := by omega
  have h2 : b / 2147483648 % 2 = 0 := by omega
  have h3 : (2147483648 + b) / 8388608 % 256 = b / 8388608 % 256 := by omega
  have h4 : (2147483648 + b) % 8388608 = b % 8388608 := by omega
  simp only [h1, h2, h3, h4]
  norm_num
  split_ifs <;> rfl

/-- In one binade, also at its upper end, the value is linear. -/
theorem dec32_lin {b e : ℕ} (he : 1 ≤ e) (h1 : e * 8388608 ≤ b) (h2 : b ≤ (e + 1) * 8388608) (hb : b < 2147483648) :
    dec32 b = (8388608 + ((b - e * 8388608 : ℕ) : ℚ)) * (2 : ℚ) ^ ((e : ℤ) - 150) := by
  rw [dec32_pos hb]
  rcases Nat.lt_or_ge b ((e + 1) * 8388608) with h | h
  · have h3 : b / 8388608 = e := by
      apply Nat.div_eq_of_lt_le <;> omega
    have h4 : b % 8388608 = b - e * 8388608 := by omega
    rw [h3, h4, if_neg (by omega)]
  · have hbe : b = (e + 1) * 8388608 := by omega
    have h3 : b / 8388608 = e + 1 := by rw [hbe]; exact Nat.mul_div_cancel _ (by norm_num)
    have h4 : b % 8388608 = 0 := by rw [hbe]; exact Nat.mul_mod_left _ _
    have h5 : b - e * 8388608 = 8388608 := by omega
    rw [h3, h4, h5, if_neg (by omega)]
    push_cast
    rw [show (e : ℤ) + 1 - 150 = ((e : ℤ) - 150) + 1 by ring, zpow_add₀ (by norm_num), zpow_one]
    ring

theorem dec_lin {h e : ℕ} (he : 1 ≤ e) (h1 : e * 1024 ≤ h) (h2 : h ≤ (e + 1) * 1024) (hb : h < 32768) :
    dec h = (1024 + ((h - e * 1024 : ℕ) : ℚ)) * (2 : ℚ) ^ ((e : ℤ) - 25) := by
  rw [dec_pos hb]
  rcases Nat.lt_or_ge h ((e + 1) * 1024) with h' | h'
  · have h3 : h / 1024 = e := by
      apply Nat.div_eq_of_lt_le <;> omega
    have h4 : h % 1024 = h - e * 1024 := by omega
    rw [h3, h4, if_neg (by omega)]
  · have hbe : h = (e + 1) * 1024 := by omega
    have h3 : h / 1024 = e + 1 := by rw [hbe]; exact Nat.mul_div_cancel _ (by norm_num)
    have h4 : h % 1024 = 0 := by rw [hbe]; exact Nat.mul_mod_left _ _
    have h5 : h - e * 1024 = 1024 := by omega
    rw [h3, h4, h5, if_neg (by omega)]
    push_cast
    rw [show (e : ℤ) + 1 - 25 = ((e : ℤ) - 25) + 1 by ring, zpow_add₀ (by norm_num), zpow_one]
    ring

theorem dec_small {h : ℕ} (hh : h ≤ 1024) : dec h = h * (2 : ℚ) ^ (-24 : ℤ) := by
  rcases Nat.lt_or_ge h 1024 with h' | h'
  · rw [dec_pos (by omega), if_pos (by omega)]
  · obtain rfl : h = 1024 := by omega
    rw [dec_pos (by omega)]
    norm_num

theorem dec_succ_lt {h : ℕ} (hh : h + 1 < 32768) : dec h < dec (h + 1) := by
  have p24 : (0 : ℚ) < (2 : ℚ) ^ (-24 : ℤ) := by positivity
  rcases Nat.lt_or_ge h 1024 with h' | h'
  · rw [dec_small (by omega), dec_small (by omega)]
    push_cast
    linarith
  · have pe : (0 : ℚ) < (2 : ℚ) ^ (((h / 1024 : ℕ) : ℤ) - 25) := by positivity
    rw [dec_lin (e := h / 1024) (by omega) (by omega) (by omega) (by omega),
      dec_lin (e := h / 1024) (h := h + 1) (by omega) (by omega) (by omega) (by omega)]
    rw [show h + 1 - h / 1024 * 1024 = (h - h / 1024 * 1024) + 1 by omega]
    simp only [Nat.cast_add, Nat.cast_one]
    nlinarith

theorem dec_mono {a b : ℕ} (h : a ≤ b) (hb : b < 32768) : dec a ≤ dec b := by
  induction b, h using Nat.le_induction with
  | base => rfl
  | succ b hab ih => exact le_trans (ih (by omega)) (dec_succ_lt (by omega)).le

theorem dec32_succ_lt {b : ℕ} (hb : b + 1 < 2147483648) : dec32 b < dec32 (b + 1) := by
  have p : (0 : ℚ) < (2 : ℚ) ^ (-149 : ℤ) := by positivity
  rcases Nat.lt_or_ge b 8388608 with h' | h'
  · rw [dec32_pos (by omega), if_pos (by omega)]
    rcases Nat.lt_or_ge (b + 1) 8388608 with h'' | h''
    · rw [dec32_pos (by omega), if_pos (by omega)]
      push_cast
      linarith
    · obtain rfl : b = 8388607 := by omega
      rw [dec32_pos (by omega), if_neg (by omega)]
      norm_num
  · have pe : (0 : ℚ) < (2 : ℚ) ^ (((b / 8388608 : ℕ) : ℤ) - 150) := by positivity
    rw [dec32_lin (e := b / 8388608) (by omega) (by omega) (by omega) (by omega),
      dec32_lin (e := b / 8388608) (b := b + 1) (by omega) (by omega) (by omega) (by omega)]
    rw [show b + 1 - b / 8388608 * 8388608 = (b - b / 8388608 * 8388608) + 1 by omega]
    simp only [Nat.cast_add, Nat.cast_one]
    nlinarith

theorem dec32_mono {a b : ℕ} (h : a ≤ b) (hb : b < 2147483648) : dec32 a ≤ dec32 b := by
  induction b, h using Nat.le_induction with
  | base => rfl
  | succ b hab ih => exact le_trans (ih (by omega)) (dec32_succ_lt (by omega)).le

/-- A normal half as a single. -/
theorem dec_eq_dec32 {h : ℕ} (h1 : 1024 ≤ h) (h2 : h < 32768) : dec h = dec32 (8192 * (h + 114688)) := by
  rw [dec_lin (e := h / 1024) (by omega) (by omega) (by omega) (by omega),
    dec32_lin (e := h / 1024 + 112) (by omega) (by omega) (by omega) (by omega)]
  rw [show 8192 * (h + 114688) - (h / 1024 + 112) * 8388608 = 8192 * (h - h / 1024 * 1024) by omega]
  simp only [Nat.cast_add, Nat.cast_mul, Nat.cast_ofNat]
  rw [show ((h / 1024 : ℕ) : ℤ) + 112 - 150 = (((h / 1024 : ℕ) : ℤ) - 25) + (-13) by ring, zpow_add₀ (by norm_num)]
  norm_num
  ring

/-- Half way between two normal halves. -/
theorem dec32_mid {h : ℕ} (h1 : 1024 ≤ h) (h2 : h + 1 < 32768) :
    2 * dec32 (8192 * (h + 114688) + 4096) = dec h + dec (h + 1) := by
  rw [dec_eq_dec32 h1 (by omega), dec_eq_dec32 (by omega : 1024 ≤ h + 1) (by omega),
    dec32_lin (e := h / 1024 + 112) (by omega) (by omega) (by omega) (by omega),
    dec32_lin (e := h / 1024 + 112) (by omega) (by omega) (by omega) (by omega),
    dec32_lin (e := h / 1024 + 112) (by omega) (by omega) (by omega) (by omega)]
  rw [show 8192 * (h + 114688) - (h / 1024 + 112) * 8388608 = 8192 * (h - h / 1024 * 1024) by omega,
    show 8192 * (h + 114688) + 4096 - (h / 1024 + 112) * 8388608 = 8192 * (h - h / 1024 * 1024) + 4096 by omega,
    show 8192 * (h + 1 + 114688) - (h / 1024 + 112) * 8388608 = 8192 * (h - h / 1024 * 1024) + 8192 by omega]
  push_cast
  ring

end PicScale.F16
