import Verif.Lemmas.F16Conv

/-! Rounding of `_mm_cvtps_ph_fallback`. -/

namespace PicScale.F16

open F32

theorem dec_small' {h : ℕ} (hh : h ≤ 2048) : dec h = h * (2 : ℚ) ^ (-24 : ℤ) := by
  rcases Nat.lt_or_ge h 1024 with h' | h'
  · exact dec_small (by omega)
  · rw [dec_lin (e := 1) (by omega) (by omega) (by omega) (by omega), Nat.cast_sub (by omega)]
    norm_num

theorem dec32_nonneg {b : ℕ} (hb : b < 2147483648) : 0 ≤ dec32 b := by
  rw [dec32_pos hb]
  split_ifs <;> positivity

theorem dec_nonneg {h : ℕ} (hh : h < 32768) : 0 ≤ dec h := by
  rw [dec_pos hh]
  split_ifs <;> positivity

theorem dec32_lt {a b : ℕ} (h : a < b) (hb : b < 2147483648) : dec32 a < dec32 b :=
  lt_of_lt_of_le (dec32_succ_lt (by omega)) (dec32_mono h hb)

/-- The two midpoints around `h` hold `v`. -/
def Between (h : ℕ) (v : ℚ) : Prop := (0 < h → dec (h - 1) + dec h ≤ 2 * v) ∧ 2 * v < dec h + dec (h + 1)

theorem nearest_of_between {h : ℕ} {v : ℚ} (hh : h + 1 < 32768) (hb : Between h v) (h' : ℕ) (hh' : h' < 32768) :
    |dec h - v| ≤ |dec h' - v| := by
  rcases Nat.lt_trichotomy h' h with c | c | c
  · have m1 : dec h' ≤ dec (h - 1) := dec_mono (by omega) (by omega)
    have m2 : dec (h - 1) < dec h := by
      have := dec_succ_lt (h := h - 1) (by omega)
      rwa [Nat.sub_add_cancel (by omega)] at this
    have := hb.1 (by omega)
    rw [abs_sub_comm (dec h'), abs_of_nonneg (by linarith : 0 ≤ v - dec h'), abs_le]
    constructor <;> linarith
  · rw [c]
  · have m1 : dec (h + 1) ≤ dec h' := dec_mono (by omega) (by omega)
    have m2 : dec h < dec (h + 1) := dec_succ_lt (by omega)
    have := hb.2
    rw [abs_of_nonneg (by linarith : 0 ≤ dec h' - v), abs_le]
    constructor <;> linarith

theorem between_small {h s e : ℕ} {v : ℚ} (hh : h ≤ 1024) (he : e ≤ 125) (hv : v = (s : ℚ) * (2 : ℚ) ^ ((e : ℤ) - 150))
    (h1 : 0 < h → (2 * h - 1) * 2 ^ (125 - e) ≤ s) (h2 : s < (2 * h + 1) * 2 ^ (125 - e)) : Between h v := by
  have hp : (2 : ℚ) ^ ((e : ℤ) - 150) * (2 : ℚ) ^ (125 - e : ℕ) * 2 = (2 : ℚ) ^ (-24 : ℤ) := by
    rw [← zpow_natCast, Nat.cast_sub he, ← zpow_add₀ (by norm_num), ← zpow_add_one₀ (by norm_num)]
    congr 1
    push_cast
    ring
  have hpos : (0 : ℚ) < (2 : ℚ) ^ ((e : ℤ) - 150) := by positivity
  constructor
  · intro h0
    have := h1 h0
    have hq : ((2 * (h : ℚ) - 1) * 2 ^ (125 - e)) ≤ s := by
      have h3 : (((2 * h - 1) * 2 ^ (125 - e) : ℕ) : ℚ) ≤ s := by exact_mod_cast this
      rw [Nat.cast_mul, Nat.cast_sub (by omega)] at h3
      push_cast at h3
      exact h3
    rw [dec_small' (by omega), dec_small' (by omega), hv, Nat.cast_sub (by omega), ← hp]
    have := mul_le_mul_of_nonneg_right hq hpos.le
    push_cast
    nlinarith
  · have hq : (s : ℚ) < (2 * (h : ℚ) + 1) * 2 ^ (125 - e) := by exact_mod_cast h2
    rw [dec_small' (by omega), dec_small' (by omega), hv, ← hp]
    have := mul_lt_mul_of_pos_right hq hpos
    push_cast
    nlinarith

set_option maxRecDepth 8000 in
theorem between_normal {h x : ℕ} (h0 : 1024 ≤ h) (hh : h + 1 < 32768) (h1 : 8192 * (h + 114688) ≤ x + 4096)
    (h2 : x < 8192 * (h + 114688) + 4096) : Between h (dec32 x) := by
  constructor
  · intro _
    rcases Nat.lt_or_ge 1024 h with c | c
    · have := dec32_mid (h := h - 1) (by omega) (by omega)
      rw [Nat.sub_add_cancel (by omega)] at this
      rw [← this]
      have hle : 8192 * (h - 1 + 114688) + 4096 ≤ x := by
        clear this
        obtain ⟨k, rfl⟩ : ∃ k, h = k + 1 := ⟨h - 1, by omega⟩
        simp only [Nat.mul_add, Nat.reduceMul, Nat.add_sub_cancel] at *
        omega
      have hx : x < 2147483648 := by
        clear this hle
        simp only [Nat.mul_add, Nat.reduceMul] at *
        omega
      have := dec32_mono hle hx
      linarith
    · obtain rfl : h = 1024 := by omega
      have h3 := dec32_mono (a := 112 * 8388608 + 8384512) (b := x) (by omega) (by omega)
      rw [dec32_lin (e := 112) (by omega) (by omega) (by omega) (by omega)] at h3
      rw [dec_small' (by omega), dec_small' (by omega)]
      norm_num at h3 ⊢
      linarith
  · rw [← dec32_mid h0 hh]
    have := dec32_lt h2 (by omega)
    linarith

theorem sub_core {h m e : ℕ} (he1 : 101 < e) (he2 : e ≤ 112) (hm : m < 8388608)
    (hh : h = ((8384512 + m) / 2 ^ (125 - e) + 1) / 2) :
    h ≤ 1024 ∧
    (4096 ≤ m → (0 < h → (2 * h - 1) * 2 ^ (125 - e) ≤ 8384512 + m) ∧ 8384512 + m < (2 * h + 1) * 2 ^ (125 - e)) ∧
    (m < 4096 → (0 < h → (2 * h - 1) * 2 ^ (126 - e) ≤ 16773120 + m) ∧ 16773120 + m < (2 * h + 1) * 2 ^ (126 - e)) := by
  interval_cases e <;> simp only [Nat.reduceSub, Nat.reducePow] at * <;> omega

set_option maxRecDepth 8000 in
/-- The fallback rounds to nearest, ties upward. -/
theorem narrowFb_between {x : ℕ} (hx : x < 0x477FF000) : narrowFb x < 0x7C00 ∧ Between (narrowFb x) (dec32 x) := by
  rw [narrowFb_eq]
  have hb : (x + 4096) % 2 ^ 32 = x + 4096 := Nat.mod_eq_of_lt (by omega)
  simp only [hb]
  have he : (x + 4096) / 8388608 % 256 = (x + 4096) / 8388608 := Nat.mod_eq_of_lt (by omega)
  rw [he]
  generalize hE : (x + 4096) / 8388608 = e
  generalize hM : (x + 4096) % 8388608 = m
  have hm : m < 8388608 := by omega
  have hx' : x + 4096 = e * 8388608 + m := by omega
  have he2 : e ≤ 142 := by omega
  clear hb he hE hM
  rw [if_neg (by omega)]
  split_ifs with h1 h2
  · exact ⟨by omega, between_normal (by omega) (by omega) (by omega)
      (by simp only [Nat.mul_add, Nat.reduceMul] at *; omega)⟩
  · obtain ⟨k1, k2, k3⟩ := sub_core h2 (by omega) hm rfl
    refine ⟨by omega, ?_⟩
    rcases Nat.lt_or_ge m 4096 with c | c
    · refine between_small (s := 16773120 + m) (e := e - 1) k1 (by omega) ?_ ?_ ?_
      · rw [dec32_lin (e := e - 1) (by omega) (by omega) (by omega) (by omega)]
        congr 1
        rw [show x - (e - 1) * 8388608 = 8384512 + m by omega]
        push_cast
        ring
      · rw [show 125 - (e - 1) = 126 - e by omega]; exact (k3 c).1
      · rw [show 125 - (e - 1) = 126 - e by omega]; exact (k3 c).2
    · refine between_small (s := 8384512 + m) (e := e) k1 (by omega) ?_ (k2 c).1 (k2 c).2
      rw [dec32_lin (e := e) (by omega) (by omega) (by omega) (by omega)]
      congr 1
      rw [show x - e * 8388608 = m - 4096 by omega, Nat.cast_sub c]
      push_cast
      ring
  · refine ⟨by norm_num, fun h => absurd h (by norm_num), ?_⟩
    have h3 := dec32_lt (a := x) (b := 102 * 8388608) (by omega) (by omega)
    rw [dec32_lin (b := 102 * 8388608) (e := 102) (by omega) (by omega) (by omega) (by omega)] at h3
    rw [dec_small' (by omega), dec_small' (by omega)]
    norm_num at h3 ⊢
    linarith

/-- No narrowed pattern has its sign bit set. -/
theorem narrowFb_unsigned (x : ℕ) : narrowFb x < 0x8000 := by
  rw [narrowFb_eq]
  simp only
  generalize he : (x + 4096) % 2 ^ 32 / 8388608 % 256 = e
  have hm : (x + 4096) % 2 ^ 32 % 8388608 < 8388608 := Nat.mod_lt _ (by norm_num)
  generalize (x + 4096) % 2 ^ 32 % 8388608 = m at hm ⊢
  split_ifs with h1 h2 h3
  · norm_num
  · omega
  · have := (sub_core h3 (by omega) hm rfl).1
    omega
  · norm_num

/-- Clearing the sign bit changes nothing: what the sign says is not looked at. -/
theorem narrowFb_sign {x : ℕ} (hx : x < 0x7FFFF000) : narrowFb (0x80000000 + x) = narrowFb x := by
  rw [narrowFb_eq, narrowFb_eq]
  simp only
  rw [show (0x80000000 + x + 4096) % 2 ^ 32 / 8388608 % 256 = (x + 4096) % 2 ^ 32 / 8388608 % 256 by omega,
    show (0x80000000 + x + 4096) % 2 ^ 32 % 8388608 = (x + 4096) % 2 ^ 32 % 8388608 by omega]

/-- Overflow: everything from 65568 up becomes a NaN pattern. -/
theorem narrowFb_overflow {x : ℕ} (h1 : 0x47801000 ≤ x) (h2 : x < 0x7FFFF000) : 0x7C00 < narrowFb x := by
  rw [narrowFb_eq]
  simp only
  rw [show (x + 4096) % 2 ^ 32 = x + 4096 by omega]
  split_ifs with a b c <;> omega

/-- A tiny number and its pattern. -/
theorem narrowFb_widenFb {h : ℕ} (hh : h < 31744) : narrowFb (widenFb h) = h := by
  have hx : widenFb h = widenMag h := by rw [widenFb_eq (by omega), Nat.div_eq_of_lt (by omega), Nat.zero_mul, Nat.zero_add]
  have hd : dec32 (widenFb h) = dec h := dec32_widenFb (by omega) (by omega)
  have hlt : widenFb h < 0x477FF000 := by
    by_contra hc
    push Not at hc
    have h1 := dec32_mono hc (by rw [hx]; exact widenMag_lt h)
    rw [hd, dec32_lin (e := 142) (by omega) (by omega) (by omega) (by omega)] at h1
    have h2 := dec_mono (a := h) (b := 31743) (by omega) (by omega)
    rw [dec_lin (e := 30) (h := 31743) (by omega) (by omega) (by omega) (by omega)] at h2
    norm_num at h1 h2
    linarith
  obtain ⟨k1, k2⟩ := narrowFb_between hlt
  have := nearest_of_between (by omega) k2 h (by omega)
  rw [hd, sub_self, abs_zero] at this
  have e := abs_nonpos_iff.1 this
  rcases Nat.lt_trichotomy (narrowFb (widenFb h)) h with c | c | c
  · have := lt_of_lt_of_le (dec_succ_lt (h := narrowFb (widenFb h)) (by omega)) (dec_mono c (by omega))
    linarith
  · exact c
  · have := lt_of_lt_of_le (dec_succ_lt (h := h) (by omega)) (dec_mono c (by omega))
    linarith

end PicScale.F16
