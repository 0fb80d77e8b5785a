import Verif.Lemmas.F16Narrow
import Verif.Lemmas.F32

/-! IEEE narrowing to halves, and the pattern of a binary32 number. -/

namespace PicScale.F16

open F32

theorem rhe_ge {q : ℚ} {z : ℤ} (h : (z : ℚ) ≤ q) : z ≤ rhe q := by
  have := rhe_mono h
  rwa [rhe_intCast] at this

theorem rhe_le {q : ℚ} {z : ℤ} (h : q ≤ (z : ℚ)) : rhe q ≤ z := by
  have := rhe_mono h
  rwa [rhe_intCast] at this

/-- Rounding of a magnitude: exponent `E`, significand `r`. -/
theorem mag_spec {a : ℚ} (ha : 0 < a) (hlt : a < 65520) :
    ∃ E : ℤ, ∃ r : ℕ, qexp16 a = E ∧ (rhe (a / pow2 E)).toNat = r ∧ -24 ≤ E ∧ E ≤ 5 ∧ r ≤ 2048 ∧
      (-24 < E → 1024 ≤ r ∧ (2 : ℚ) ^ (E + 10) ≤ a) ∧ (E = 5 → r < 2048) ∧ |(r : ℚ) * (2 : ℚ) ^ E - a| ≤ (2 : ℚ) ^ E / 2 := by
  obtain ⟨l1, l2⟩ := ilog2_spec ha
  have hE : qexp16 a = max (ilog2 a - 10) (-24) := by unfold qexp16; rw [abs_of_pos ha]
  generalize hl : ilog2 a = l at l1 l2 hE
  generalize qexp16 a = E at hE
  have hl5 : l ≤ 15 := by
    by_contra hc
    have : (2 : ℚ) ^ (16 : ℤ) ≤ 2 ^ l := zpow_le_zpow_right₀ (by norm_num) (by omega)
    norm_num at this
    linarith
  have hp : (0 : ℚ) < (2 : ℚ) ^ E := by positivity
  have hle : a ≤ (2 : ℚ) ^ (E + 11) := by
    refine le_trans l2.le ?_
    exact zpow_le_zpow_right₀ (by norm_num) (by omega)
  have hq0 : (0 : ℚ) ≤ a / pow2 E := by rw [pow2_eq]; positivity
  have hr0 : 0 ≤ rhe (a / pow2 E) := rhe_ge (by exact_mod_cast hq0)
  have hsp := rhe_spec (a / pow2 E)
  have hup : a / pow2 E ≤ 2048 := by
    rw [pow2_eq, div_le_iff₀ hp]
    rw [zpow_add₀ (by norm_num)] at hle
    norm_num at hle
    linarith
  refine ⟨E, (rhe (a / pow2 E)).toNat, rfl, rfl, by omega, by omega, ?_, ?_, ?_, ?_⟩
  · have := rhe_le (q := a / pow2 E) (z := 2048) (by exact_mod_cast hup)
    omega
  · intro h24
    have hEl : E = l - 10 := by omega
    have h1 : (2 : ℚ) ^ (E + 10) ≤ a := by rw [hEl, sub_add_cancel]; exact l1
    refine ⟨?_, h1⟩
    have : (1024 : ℤ) ≤ rhe (a / pow2 E) := by
      apply rhe_ge
      rw [pow2_eq, le_div_iff₀ hp]
      rw [zpow_add₀ (by norm_num)] at h1
      norm_num at h1 ⊢
      linarith
    omega
  · intro h5
    have hv : a / pow2 E < 2047.5 := by
      rw [pow2_eq, div_lt_iff₀ hp, h5]
      norm_num
      linarith
    have : (rhe (a / pow2 E) : ℚ) < 2048 := by
      have := (abs_le.1 hsp).2
      linarith
    have h3 : rhe (a / pow2 E) < 2048 := by exact_mod_cast this
    omega
  · have e1 : (((rhe (a / pow2 E)).toNat : ℕ) : ℚ) = (rhe (a / pow2 E) : ℚ) := by
      have : (((rhe (a / pow2 E)).toNat : ℕ) : ℤ) = rhe (a / pow2 E) := Int.toNat_of_nonneg hr0
      exact_mod_cast congrArg (fun z : ℤ => (z : ℚ)) this
    rw [e1]
    rw [pow2_eq] at hsp ⊢
    have : (rhe (a / (2 : ℚ) ^ E) : ℚ) * 2 ^ E - a = ((rhe (a / (2 : ℚ) ^ E) : ℚ) - a / 2 ^ E) * 2 ^ E := by
      field_simp
    rw [this, abs_mul, abs_of_pos hp]
    nlinarith

/-- The pattern built from `E` and `r`. -/
theorem dec_mag {E : ℤ} {r : ℕ} (h1 : -24 ≤ E) (h2 : E ≤ 5) (h3 : r ≤ 2048) (h4 : -24 < E → 1024 ≤ r) (h5 : E = 5 → r < 2048) :
    (E + 24).toNat * 1024 + r < 31744 ∧ dec ((E + 24).toNat * 1024 + r) = r * (2 : ℚ) ^ E := by
  obtain ⟨n, hn⟩ := Int.eq_ofNat_of_zero_le (show 0 ≤ E + 24 by omega)
  have hE : E = (n : ℤ) - 24 := by omega
  subst hE
  rw [show ((n : ℤ) - 24 + 24).toNat = n by omega]
  have hlt : n * 1024 + r < 31744 := by omega
  refine ⟨hlt, ?_⟩
  rcases Nat.eq_zero_or_pos n with h0 | h0
  · subst h0
    rw [Nat.zero_mul, Nat.zero_add, dec_small' h3]
    norm_num
  · have hr : 1024 ≤ r := h4 (by omega)
    rw [dec_lin (e := n + 1) (by omega) (by omega) (by omega) (by omega),
      show n * 1024 + r - (n + 1) * 1024 = r - 1024 by omega, Nat.cast_sub hr]
    push_cast
    rw [show (n : ℤ) + 1 - 25 = (n : ℤ) - 24 by ring]
    ring

theorem qexp16_abs (q : ℚ) : qexp16 |q| = qexp16 q := by unfold qexp16; rw [abs_abs]

/-- The magnitude pattern of `enc`. -/
theorem enc_cases {q : ℚ} (hlt : |q| < 65520) : ∃ m, m < 31744 ∧ |dec m - (|q|)| ≤ |q| / 2 ^ 11 + 1 / 2 ^ 25 ∧
    (enc q = m ∧ (0 ≤ q ∨ m = 0) ∨ enc q = 32768 + m ∧ q < 0) ∧
    ∀ h', h' < 32768 → |dec m - (|q|)| ≤ |dec h' - (|q|)| := by
  unfold enc
  by_cases h0 : q = 0
  · subst h0
    refine ⟨0, by norm_num, by norm_num [dec], by simp, fun h' _ => by norm_num [dec]⟩
  have ha : 0 < |q| := abs_pos.2 h0
  obtain ⟨E, r, e1, e2, b1, b2, b3, b4, b5, b6⟩ := mag_spec ha hlt
  rw [qexp16_abs] at e1
  rw [e1, e2, if_neg h0]
  obtain ⟨d1, d2⟩ := dec_mag b1 b2 b3 (fun h => (b4 h).1) b5
  have hmin : min 0x7C00 ((E + 24).toNat * 1024 + r) = (E + 24).toNat * 1024 + r := Nat.min_eq_right (by omega)
  refine ⟨(E + 24).toNat * 1024 + r, d1, ?_, ?_, ?_⟩
  · rw [d2]
    refine le_trans b6 ?_
    rcases eq_or_lt_of_le b1 with h | h
    · rw [← h]
      have : 0 ≤ |q| / 2 ^ 11 := by positivity
      norm_num at this ⊢
      exact this
    · have := (b4 h).2
      rw [zpow_add₀ (by norm_num)] at this
      norm_num at this ⊢
      linarith
  · rw [hmin]
    split_ifs with hc
    · exact Or.inr ⟨rfl, hc.1⟩
    · left
      refine ⟨rfl, ?_⟩
      rcases lt_or_ge q 0 with h | h
      · right; by_contra hm; exact hc ⟨h, hm⟩
      · exact Or.inl h
  · intro h' hh'
    have hp : (0 : ℚ) < (2 : ℚ) ^ E := by positivity
    have up : dec ((E + 24).toNat * 1024 + r) + 2 ^ E ≤ dec ((E + 24).toNat * 1024 + r + 1) := by
      obtain ⟨n, hn⟩ := Int.eq_ofNat_of_zero_le (show 0 ≤ E + 24 by omega)
      have hE : E = (n : ℤ) - 24 := by omega
      have hnl : n * 1024 + r + 1 < 32768 := by
        rw [hn, Int.toNat_natCast] at d1
        exact lt_trans (Nat.add_lt_add_right d1 1) (by norm_num)
      rw [d2, hn, Int.toNat_natCast]
      rcases Nat.lt_or_ge r 2048 with hr | hr
      · rcases Nat.eq_zero_or_pos n with hz | hz
        · subst hz
          rw [Nat.zero_mul, Nat.zero_add, dec_small' (by omega), hE]
          push_cast
          norm_num
          linarith
        · have hr2 : 1024 ≤ r := (b4 (by omega)).1
          rw [dec_lin (e := n + 1) (by omega) (by rw [Nat.add_mul]; omega) (by rw [Nat.add_mul, Nat.add_mul]; omega) hnl,
            show n * 1024 + r + 1 - (n + 1) * 1024 = r + 1 - 1024 by omega, Nat.cast_sub (by omega), hE]
          push_cast
          rw [show (n : ℤ) + 1 - 25 = (n : ℤ) - 24 by ring]
          linarith
      · have hr' : r = 2048 := by omega
        subst hr'
        rw [dec_lin (e := n + 2) (by omega) (by rw [Nat.add_mul]; omega) (by rw [Nat.add_mul, Nat.add_mul]; omega) hnl,
          show n * 1024 + 2048 + 1 - (n + 2) * 1024 = 1 by omega, hE]
        push_cast
        rw [show (n : ℤ) + 2 - 25 = ((n : ℤ) - 24) + 1 by ring, zpow_add_one₀ (by norm_num)]
        have : (0 : ℚ) < (2 : ℚ) ^ ((n : ℤ) - 24) := by positivity
        linarith
    have b6' := abs_le.1 b6
    rw [← d2] at b6'
    rcases Nat.lt_trichotomy h' ((E + 24).toNat * 1024 + r) with c | c | c
    · -- below
      have m1 : dec h' ≤ dec ((E + 24).toNat * 1024 + r - 1) := dec_mono (by omega) (by omega)
      have dn : dec ((E + 24).toNat * 1024 + r - 1) + 2 ^ E ≤ dec ((E + 24).toNat * 1024 + r) ∨
          (dec ((E + 24).toNat * 1024 + r - 1) ≤ dec ((E + 24).toNat * 1024 + r) ∧ dec ((E + 24).toNat * 1024 + r) ≤ |q|) := by
        obtain ⟨n, hn⟩ := Int.eq_ofNat_of_zero_le (show 0 ≤ E + 24 by omega)
        have hE : E = (n : ℤ) - 24 := by omega
        rcases Nat.eq_zero_or_pos n with hz | hz
        · left
          subst hz
          rw [d2, hn, Int.toNat_natCast, Nat.zero_mul, Nat.zero_add, dec_small' (by omega), hE]
          have h1r : 1 ≤ r := by rw [hn, Int.toNat_natCast] at c; omega
          rw [Nat.cast_sub h1r]
          norm_num
          linarith
        · have hr2 := b4 (by omega)
          rcases Nat.eq_or_lt_of_le hr2.1 with hr | hr
          · right
            refine ⟨dec_mono (by omega) (by omega), ?_⟩
            rw [d2, ← hr]
            refine le_trans (le_of_eq ?_) hr2.2
            rw [zpow_add₀ (by norm_num)]
            norm_num
            ring
          · left
            rw [d2, hn, Int.toNat_natCast, dec_lin (e := n + 1) (by omega) (by rw [Nat.add_mul]; omega) (by rw [Nat.add_mul, Nat.add_mul]; omega) (by omega),
              show n * 1024 + r - 1 - (n + 1) * 1024 = r - 1025 by omega, Nat.cast_sub (by omega), hE]
            push_cast
            rw [show (n : ℤ) + 1 - 25 = (n : ℤ) - 24 by ring]
            linarith
      rcases dn with dn | ⟨dn1, dn2⟩
      · rw [abs_sub_comm (dec h'), abs_of_nonneg (by linarith : 0 ≤ |q| - dec h'), abs_le]
        constructor <;> linarith
      · rw [abs_sub_comm (dec h'), abs_of_nonneg (by linarith : 0 ≤ |q| - dec h'), abs_sub_comm, abs_of_nonneg (by linarith)]
        linarith
    · rw [c]
    · have m1 : dec ((E + 24).toNat * 1024 + r + 1) ≤ dec h' := dec_mono c (by omega)
      rw [abs_of_nonneg (by linarith : 0 ≤ dec h' - |q|), abs_le]
      constructor <;> linarith

/-- Below the overflow threshold `enc` gives a finite half, and the error is half a unit in the last place. -/
theorem enc_near {q : ℚ} (hlt : |q| < 65520) :
    enc q / 1024 % 32 < 31 ∧ enc q < 65536 ∧ |dec (enc q) - q| ≤ |q| / 2 ^ 11 + 1 / 2 ^ 25 := by
  obtain ⟨m, m1, m2, m3, _⟩ := enc_cases hlt
  rcases m3 with ⟨e, h⟩ | ⟨e, h⟩
  · rw [e]
    refine ⟨by omega, by omega, ?_⟩
    rcases h with h | h
    · rwa [abs_of_nonneg h] at m2 ⊢
    · subst h
      have : dec 0 = 0 := by norm_num [dec]
      rw [this, zero_sub, abs_neg] at m2 ⊢
      rwa [abs_abs] at m2
  · rw [e]
    refine ⟨by omega, by omega, ?_⟩
    rw [dec_neg (by omega), abs_of_neg h] at *
    rw [show -dec m - q = -(dec m - -q) by ring, abs_neg]
    exact m2

/-- `enc` is a nearest half. -/
theorem enc_nearest {q : ℚ} (hlt : |q| < 65520) {h' : ℕ} (hh : h' < 65536) : |dec (enc q) - q| ≤ |dec h' - q| := by
  obtain ⟨m, m1, m2, m3, m4⟩ := enc_cases hlt
  have key : |dec (enc q) - q| = |dec m - (|q|)| := by
    rcases m3 with ⟨e, h⟩ | ⟨e, h⟩
    · rw [e]
      rcases h with h | h
      · rw [abs_of_nonneg h]
      · subst h
        have : dec 0 = 0 := by norm_num [dec]
        rw [this, zero_sub, abs_neg, zero_sub, abs_neg, abs_abs]
    · rw [e, dec_neg (by omega), abs_of_neg h, show -dec m - q = -(dec m - -q) by ring, abs_neg]
  rw [key]
  rcases Nat.lt_or_ge h' 32768 with c | c
  · refine le_trans (m4 h' c) ?_
    have hd := dec_nonneg c
    rcases le_or_gt 0 q with hq | hq
    · rw [abs_of_nonneg hq]
    · have h1 : |dec h' - q| = dec h' - q := abs_of_nonneg (by linarith)
      rw [h1, abs_of_neg hq, abs_le]
      constructor <;> linarith
  · obtain ⟨k, rfl⟩ := Nat.exists_eq_add_of_le c
    have hk : k < 32768 := by omega
    refine le_trans (m4 k hk) ?_
    have hd := dec_nonneg hk
    rw [dec_neg hk]
    rcases le_or_gt 0 q with hq | hq
    · have h1 : |-dec k - q| = dec k + q := by rw [show -dec k - q = -(dec k + q) by ring, abs_neg, abs_of_nonneg (by linarith)]
      rw [h1, abs_of_nonneg hq, abs_le]
      constructor <;> linarith
    · rw [abs_of_neg hq, show -dec k - q = -(dec k - -q) by ring, abs_neg]

/-! ### patterns of binary32 numbers -/

theorem dec32_enc32_pos {v : ℚ} (hv : 0 < v) (hr : rnd v = v) (hlt : v < 2 ^ 127) :
    enc32 v < 0x7F000000 ∧ dec32 (enc32 v) = v := by
  obtain ⟨l1, l2⟩ := ilog2_spec hv
  have hE : qexp v = max (ilog2 v - 23) (-149) := by unfold qexp; rw [abs_of_pos hv]
  have hrd := rnd_def v
  rw [hr] at hrd
  unfold enc32
  rw [if_neg hv.ne', if_neg (not_lt.2 hv.le), Nat.zero_add, abs_of_pos hv, pow2_eq]
  generalize hl : ilog2 v = l at l1 l2 hE
  generalize qexp v = E at *
  have hp : (0 : ℚ) < (2 : ℚ) ^ E := by positivity
  have hl5 : l ≤ 126 := by
    by_contra hc
    have : (2 : ℚ) ^ (127 : ℤ) ≤ 2 ^ l := zpow_le_zpow_right₀ (by norm_num) (by omega)
    have h2 : (2 : ℚ) ^ (127 : ℤ) = 2 ^ 127 := by norm_cast
    linarith
  have hq0 : (0 : ℚ) ≤ v / 2 ^ E := by positivity
  have hr0 : 0 ≤ rhe (v / 2 ^ E) := rhe_ge (by exact_mod_cast hq0)
  generalize hz : rhe (v / 2 ^ E) = z at *
  obtain ⟨r, rfl⟩ := Int.eq_ofNat_of_zero_le hr0
  rw [Int.toNat_natCast]
  have hvr : v = (r : ℚ) * 2 ^ E := by
    rw [hrd]; push_cast; rfl
  have hr2 : r < 2 ^ 24 := by
    have h1 : v < 2 ^ (E + 24) := lt_of_lt_of_le l2 (zpow_le_zpow_right₀ (by norm_num) (by omega))
    rw [zpow_add₀ (by norm_num), hvr, mul_comm] at h1
    have h2 := lt_of_mul_lt_mul_left h1 hp.le
    norm_num at h2
    exact_mod_cast h2
  have hr1 : -149 < E → 2 ^ 23 ≤ r := by
    intro hgt
    have hEl : E = l - 23 := by omega
    have h1 : (2 : ℚ) ^ (E + 23) ≤ v := by rw [hEl, sub_add_cancel]; exact l1
    rw [zpow_add₀ (by norm_num), hvr, mul_comm (r : ℚ)] at h1
    have h2 := le_of_mul_le_mul_left h1 hp
    norm_num at h2 ⊢
    exact_mod_cast h2
  obtain ⟨n, hn⟩ := Int.eq_ofNat_of_zero_le (show 0 ≤ E + 149 by omega)
  have hEn : E = (n : ℤ) - 149 := by omega
  rw [hn, Int.toNat_natCast]
  refine ⟨by omega, ?_⟩
  rcases Nat.eq_zero_or_pos n with h0 | h0
  · subst h0
    rw [Nat.zero_mul, Nat.zero_add]
    rcases Nat.lt_or_ge r 8388608 with hr3 | hr3
    · rw [dec32_pos (by omega), if_pos (Nat.div_eq_of_lt hr3), hvr, hEn]
      norm_num
    · rw [dec32_lin (e := 1) (by omega) (by omega) (by omega) (by omega), hvr, hEn, Nat.cast_sub (by omega)]
      norm_num
  · have hr3 := hr1 (by omega)
    rw [dec32_lin (e := n + 1) (by omega) (by omega) (by omega) (by omega),
      show n * 8388608 + r - (n + 1) * 8388608 = r - 8388608 by omega, Nat.cast_sub (by omega), hvr, hEn]
    push_cast
    rw [show (n : ℤ) + 1 - 150 = (n : ℤ) - 149 by ring]
    ring

theorem enc32_zero : enc32 0 = 0 := by simp [enc32]

/-- Narrowing a non-negative binary32 number below 65520 with the fallback. -/
theorem narrowFb_enc32 {v : ℚ} (hv : 0 ≤ v) (hr : rnd v = v) (hlt : v < 65520) :
    narrowFb (enc32 v) < 0x7C00 ∧ Between (narrowFb (enc32 v)) v := by
  rcases eq_or_lt_of_le hv with h | h
  · rw [← h, enc32_zero]
    have := narrowFb_between (x := 0) (by norm_num)
    have e : dec32 0 = 0 := by norm_num [dec32]
    rwa [e] at this
  · obtain ⟨e1, e2⟩ := dec32_enc32_pos h hr (lt_trans hlt (by norm_num))
    have hx : enc32 v < 0x477FF000 := by
      by_contra hc
      push Not at hc
      have h1 := dec32_mono hc (by omega)
      rw [e2, dec32_lin (e := 142) (by omega) (by omega) (by omega) (by omega)] at h1
      norm_num at h1
      linarith
    have := narrowFb_between hx
    rwa [e2] at this

end PicScale.F16
