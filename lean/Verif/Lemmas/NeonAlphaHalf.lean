import Verif.Lemmas.NeonAlphaU16
import Verif.SpecNeonAlpha

/-!
Errors of the NEON RGBA16 alpha handling.
-/

namespace PicScale

open Spec F32

/-- Composition of relative errors. -/
def relPlus (δ ε : ℚ) : ℚ := δ + ε + δ * ε

/-! ### binary32 -/

theorem mul_nonneg32 {x y : ℚ} (hx : 0 ≤ x) (hy : 0 ≤ y) : 0 ≤ F32.mul x y := by
  have : F32.rnd 0 = 0 := by simp [F32.rnd]
  unfold F32.mul
  rw [← this]
  exact F32.rnd_mono (mul_nonneg hx hy)

theorem premulAny_ok {d c a : ℕ} (h1 : 1 ≤ d) (h2 : d ≤ 15) (hc : c ≤ 2 ^ d - 1) (ha : a ≤ 2 ^ d - 1) :
    Premultiplied16 (2 ^ d - 1) c a (scaleLaneN c (F32.mul (a : ℚ) (F32.rnd (rnd64 (1 / ((2 ^ d - 1 : ℕ) : ℚ)))))) := by
  have hM1 : 1 ≤ 2 ^ d - 1 := by
    have : 2 ^ 1 ≤ 2 ^ d := Nat.pow_le_pow_right (by norm_num) h1
    omega
  have hM2 : 2 ^ d - 1 ≤ 32767 := by
    have : 2 ^ d ≤ 2 ^ 15 := Nat.pow_le_pow_right (by norm_num) h2
    norm_num at this
    omega
  rw [scale64_eq h1 (by omega)]
  generalize 2 ^ d - 1 = M at *
  have hq := premul_product (M := M) (c := c) (a := a) hM1 (by omega) (by omega) (b := 0) le_rfl (by norm_num)
  rw [add_zero, add_zero] at hq
  have hMq : (1 : ℚ) ≤ M := by exact_mod_cast hM1
  have hMq' : (M : ℚ) ≤ 32767 := by exact_mod_cast hM2
  have hcq : (c : ℚ) ≤ M := by exact_mod_cast hc
  have haq : (a : ℚ) ≤ M := by exact_mod_cast ha
  have ha0 : (0 : ℚ) ≤ a := by positivity
  have he0 : 0 ≤ (c : ℚ) * a / M := by positivity
  have he : (c : ℚ) * a / M ≤ M := by
    rw [div_le_iff₀ (by linarith)]
    calc (c : ℚ) * a ≤ M * a := by gcongr
      _ ≤ M * M := by gcongr
  have hr : 0 ≤ F32.rnd (1 / (M : ℚ)) := by
    have : F32.rnd 0 = 0 := by simp [F32.rnd]
    rw [← this]
    exact F32.rnd_mono (by positivity)
  have h := scaleLaneN_err (x := c) (s := F32.mul (a : ℚ) (F32.rnd (1 / (M : ℚ)))) (e := (c : ℚ) * a / M)
    (mul_nonneg32 (by positivity) (mul_nonneg32 ha0 hr)) hq (by norm_num; linarith)
  unfold Premultiplied16
  refine h.trans ?_
  norm_num
  linarith

theorem unpremul32_ok {d c a : ℕ} (h2 : d ≤ 16) (hca : c ≤ a) (ha1 : 1 ≤ a) (ha : a ≤ 65535) :
    |(scaleLaneN c (F32.mul (F32.div 1 (a : ℚ)) ((2 ^ d - 1 : ℕ) : ℚ)) : ℚ) - ((2 ^ d - 1 : ℕ) : ℚ) * c / a| ≤
      51 / 100 + ((2 ^ d - 1 : ℕ) : ℚ) * c / a / 3000000 := by
  have hM := depth_max_le h2
  generalize 2 ^ d - 1 = M at *
  have hMq : (M : ℚ) ≤ 65535 := by exact_mod_cast hM
  have haq : (a : ℚ) ≠ 0 := by have : a ≠ 0 := by omega
                               exact_mod_cast this
  have hq := premul_product (M := a) (c := c) (a := M) ha1 ha (by omega) (b := 0) le_rfl (by norm_num)
  rw [add_zero, add_zero] at hq
  have e1 : F32.mul (F32.div 1 (a : ℚ)) (M : ℚ) = F32.mul (M : ℚ) (F32.rnd (1 / (a : ℚ))) := by
    rw [F32.div_eq haq, F32.mul, F32.mul, mul_comm]
  have e2 : (c : ℚ) * M / a = M * c / a := by rw [mul_comm]
  rw [e2] at hq
  rw [e1]
  have he0 : 0 ≤ (M : ℚ) * c / a := by positivity
  have he := M_div_le (M := M) ha1 hca
  have hr : 0 ≤ F32.rnd (1 / (a : ℚ)) := by
    have : F32.rnd 0 = 0 := by simp [F32.rnd]
    rw [← this]
    exact F32.rnd_mono (by positivity)
  have h := scaleLaneN_err (x := c) (s := F32.mul (M : ℚ) (F32.rnd (1 / (a : ℚ)))) (e := (M : ℚ) * c / a)
    (mul_nonneg32 (by positivity) (mul_nonneg32 (by positivity) hr)) hq (by norm_num; linarith)
  refine h.trans ?_
  norm_num
  linarith

/-! ### halves: premultiplication -/

theorem recip10 : recipBitDepth 10 = 1 / 1024 := by decide +kernel
theorem recip12 : recipBitDepth 12 = 511 / 2097152 := by decide +kernel

theorem rel_final {δ z e n : ℚ} (h : Rel δ z e) (hδ : δ ≤ 1 / n) (hn : 100 ≤ n) (he : e ≤ 5000) :
    |(vcvta16 z : ℚ) - e| ≤ 51 / 100 + e / n := by
  have hd : δ ≤ 1 / 100 := hδ.trans (by gcongr)
  have h0 := h.nonneg (by linarith)
  have h1 := h.hi
  have he0 := h.1
  have h2 : (1 + δ) * e ≤ 2 * 5000 := by
    calc (1 + δ) * e ≤ 2 * e := by gcongr; linarith
      _ ≤ _ := by linarith
  have h3 := vcvta16_err h0 (by linarith)
  have h4 : δ * e ≤ e / n := by
    rw [div_eq_mul_one_div, mul_comm e]
    gcongr
  have h5 := h.2
  rw [abs_le] at *
  constructor <;> linarith

theorem natCases {n : ℕ} {s l : ℚ} (hs : l ≤ s) (hl : 0 ≤ l) : (n : ℚ) * s = 0 ∨ l ≤ (n : ℚ) * s := by
  rcases Nat.eq_zero_or_pos n with h | h
  · left; rw [h]; simp
  · right
    have : (1 : ℚ) ≤ n := by exact_mod_cast h
    nlinarith

theorem div_max_le {M c a : ℕ} (hM : 1 ≤ M) (hc : c ≤ M) (ha : a ≤ M) : (c : ℚ) * a / M ≤ M := by
  have hMq : (1 : ℚ) ≤ M := by exact_mod_cast hM
  have hcq : (c : ℚ) ≤ M := by exact_mod_cast hc
  have haq : (a : ℚ) ≤ M := by exact_mod_cast ha
  have ha0 : (0 : ℚ) ≤ a := by positivity
  rw [div_le_iff₀ (by linarith)]
  calc (c : ℚ) * a ≤ M * a := by gcongr
    _ ≤ M * M := by gcongr

/-- The half-precision product: relative errors `u` of the operands, `v` of the reciprocal of `M`. -/
theorem premulHalf_rel {M c a : ℕ} {u v ρ c' a' : ℚ} (hM : 1 ≤ M) (hM' : M ≤ 4095) (hcM : c ≤ M) (haM : a ≤ M)
    (hu : 0 ≤ u) (hu' : u ≤ 1 / 1000) (hv : 0 ≤ v)
    (hc : Rel u c' c) (ha : Rel u a' a) (hρ : Rel v ρ (1 / M)) (hρ1 : 1 / 4200 ≤ ρ) (hρ2 : ρ ≤ 1 / 1023)
    (hMM : (M : ℚ) * ρ ≤ 1) :
    Rel (relPlus (1 / 2 ^ 11 + 1 / 2 ^ 25 * 5000) (relPlus u (relPlus (1 / 2 ^ 11 + 1 / 2 ^ 25 * 5000) (relPlus u v))))
      (rnd16 (c' * rnd16 (a' * ρ))) ((c : ℚ) * a / M) := by
  have hMq : (1 : ℚ) ≤ M := by exact_mod_cast hM
  have hMq' : (M : ℚ) ≤ 4095 := by exact_mod_cast hM'
  have hcq : (c : ℚ) ≤ M := by exact_mod_cast hcM
  have haq : (a : ℚ) ≤ M := by exact_mod_cast haM
  have hρ0 : 0 ≤ ρ := by linarith
  have ha' := ha.nonneg (by linarith)
  have hc' := hc.nonneg (by linarith)
  have h1 := ha.mul hρ hu hv
  have lo : ∀ {n : ℕ} {x : ℚ}, Rel u x n → x = 0 ∨ 999 / 1000 ≤ x := by
    intro n x h
    rcases Nat.eq_zero_or_pos n with h0 | h0
    · left
      have := h.2
      rw [h0] at this
      simpa using this
    · right
      have h2 : (1 : ℚ) ≤ n := by exact_mod_cast h0
      have := h.lo
      nlinarith
  have hi : ∀ {n : ℕ} {x : ℚ}, n ≤ M → Rel u x n → x ≤ 4100 := by
    intro n x hn h
    have h2 : (n : ℚ) ≤ 4095 := by exact_mod_cast (hn.trans hM')
    have := h.hi
    nlinarith [h.1]
  have hs : a' * ρ = 0 ∨ 1 / 5000 ≤ a' * ρ := by
    rcases lo ha with h | h
    · left; rw [h, zero_mul]
    · right; nlinarith
  have hs2 : a' * ρ ≤ 4100 * 1 := by
    have := hi haM ha
    have hρ3 : ρ ≤ 1 := by linarith
    gcongr
  have h2 := rnd16_rel (by norm_num : (0 : ℚ) < 1 / 5000) hs (by linarith)
  have e5 : (1 : ℚ) / 2 ^ 25 / (1 / 5000) = 1 / 2 ^ 25 * 5000 := by norm_num
  rw [e5] at h2
  have h3 := h2.trans h1 (by norm_num)
  have h4 := hc.mul h3 hu (by positivity)
  set s := rnd16 (a' * ρ) with hsd
  have hs0 : 0 ≤ s := rnd16_nonneg (mul_nonneg ha' hρ0) (by linarith)
  have hs1 : s = 0 ∨ 1 / 4900 ≤ s := by
    rcases lo ha with h | h
    · left; rw [hsd, h, zero_mul, rnd16_zero]
    · right
      have h5 : (1 : ℚ) / 4205 ≤ a' * ρ := by nlinarith
      have := h2.lo
      norm_num at this
      nlinarith
  have hs3 : s ≤ 2 := by
    have h5 : a' * ρ ≤ 3 / 2 := by
      have := ha.hi
      have h6 : a' ≤ (1 + u) * M := this.trans (by gcongr)
      calc a' * ρ ≤ (1 + u) * M * ρ := by gcongr
        _ = (1 + u) * (M * ρ) := by ring
        _ ≤ (1 + u) * 1 := by gcongr
        _ ≤ _ := by linarith
    have := h2.hi
    norm_num at this
    nlinarith
  have hz : c' * s = 0 ∨ 1 / 5000 ≤ c' * s := by
    rcases lo hc with h | h
    · left; rw [h, zero_mul]
    · rcases hs1 with h' | h'
      · left; rw [h', mul_zero]
      · right; nlinarith
  have hz2 : c' * s ≤ 4100 * 2 := by
    have := hi hcM hc
    gcongr
  have h6 := rnd16_rel (by norm_num : (0 : ℚ) < 1 / 5000) hz (by linarith)
  rw [e5] at h6
  have h7 := h6.trans h4 (by norm_num)
  have e : (c : ℚ) * (a * (1 / M)) = c * a / M := by ring
  rw [e] at h7
  exact h7

theorem premulHalf_ok {d c a : ℕ} (hd : d = 10 ∨ d = 12) (hc : c ≤ 2 ^ d - 1) (ha : a ≤ 2 ^ d - 1) :
    PremultipliedTo (if d = 10 then 430 else 220) (2 ^ d - 1) c a (premulN16 true d c a) := by
  unfold PremultipliedTo premulN16
  rw [if_pos ⟨rfl, hd⟩]
  rcases hd with rfl | rfl
  · norm_num at hc ha ⊢
    rw [recip10, rnd16_nat (by omega), rnd16_nat (by omega)]
    have h := premulHalf_rel (M := 1023) (c := c) (a := a) (u := 0) (v := 1 / 1024) (ρ := 1 / 1024) (c' := c) (a' := a)
      (by norm_num) (by norm_num) hc ha le_rfl (by norm_num) (by norm_num) (Rel.exact (by positivity)) (Rel.exact (by positivity))
      ⟨by norm_num, by norm_num [abs_le]⟩ (by norm_num) (by norm_num) (by norm_num)
    have he := div_max_le (M := 1023) (by norm_num) hc ha
    push_cast at he h
    exact rel_final (n := 430) h (by norm_num [relPlus]) (by norm_num) (by linarith)
  · norm_num at hc ha ⊢
    rw [recip12]
    have h := premulHalf_rel (M := 4095) (c := c) (a := a) (u := 1 / 2 ^ 11 + 1 / 2 ^ 25) (v := 11 / 5000) (ρ := 511 / 2097152)
      (by norm_num) (by norm_num) hc ha (by norm_num) (by norm_num) (by norm_num) (rnd16_natRel hc) (rnd16_natRel ha)
      ⟨by norm_num, by norm_num [abs_le]⟩ (by norm_num) (by norm_num) (by norm_num)
    have he := div_max_le (M := 4095) (by norm_num) hc ha
    push_cast at he h
    exact rel_final (n := 220) h (by norm_num [relPlus]) (by norm_num) (by linarith)

/-! ### halves: unpremultiplication -/

theorem relPlus_le {δ ε A B : ℚ} (h0 : 0 ≤ δ) (h1 : 0 ≤ ε) (hA : δ ≤ A) (hB : ε ≤ B) : 0 ≤ relPlus δ ε ∧ relPlus δ ε ≤ A + B + A * B := by
  unfold relPlus
  have : δ * ε ≤ A * B := mul_le_mul hA hB h1 (h0.trans hA)
  have h2 : 0 ≤ δ * ε := mul_nonneg h0 h1
  constructor <;> linarith

theorem quotient_rel {u : ℚ} (hu : 0 ≤ u) (hu' : u ≤ 1 / 1000) :
    relPlus (1 / 2 ^ 11 + 1 / 2 ^ 25 * 5000) (relPlus u (relPlus (1 / 2 ^ 11 + 1 / 2 ^ 25 * 5000) (u + 2 * u * u))) ≤ 1 / 2 := by
  have hb : u + 2 * u * u ≤ 1 / 100 := by nlinarith
  have hb0 : 0 ≤ u + 2 * u * u := by positivity
  have hw : (1 : ℚ) / 2 ^ 11 + 1 / 2 ^ 25 * 5000 ≤ 1 / 100 := by norm_num
  have hw0 : (0 : ℚ) ≤ 1 / 2 ^ 11 + 1 / 2 ^ 25 * 5000 := by norm_num
  have h1 := relPlus_le hw0 hb0 hw hb
  have h2 := relPlus_le hu h1.1 hu' h1.2
  have h3 := relPlus_le hw0 h2.1 hw h2.2
  refine h3.2.trans ?_
  norm_num

/-- The half-precision quotient: relative errors `u` of the operands, `v` of `M`. -/
theorem unpremulHalf_rel {M c a : ℕ} {u v m c' a' : ℚ} (hM1 : 1 ≤ M) (hM' : M ≤ 4095) (hca : c ≤ a) (ha1 : 1 ≤ a) (haM : a ≤ 4095)
    (hu : 0 ≤ u) (hu' : u ≤ 1 / 1000) (hv : 0 ≤ v) (hv' : v ≤ 1 / 1000)
    (hc : Rel u c' c) (ha : Rel u a' a) (hm : Rel v m M) :
    Rel (relPlus (1 / 2 ^ 11 + 1 / 2 ^ 25 * 5000) (relPlus u (relPlus (1 / 2 ^ 11 + 1 / 2 ^ 25 * 5000) (u + 2 * u * u))))
      (rnd16 (c' * rnd16 (1 / a'))) ((c : ℚ) / a) ∧ rnd16 (c' * rnd16 (1 / a')) ≤ 2 ∧ m ≤ 5000 ∧
    Rel (relPlus (1 / 2 ^ 11 + 1 / 2 ^ 25 * 5000) (relPlus (relPlus (1 / 2 ^ 11 + 1 / 2 ^ 25 * 5000)
      (relPlus u (relPlus (1 / 2 ^ 11 + 1 / 2 ^ 25 * 5000) (u + 2 * u * u)))) v))
      (rnd16 (rnd16 (c' * rnd16 (1 / a')) * m)) ((M : ℚ) * c / a) := by
  have hMq : (1 : ℚ) ≤ M := by exact_mod_cast hM1
  have hMq' : (M : ℚ) ≤ 4095 := by exact_mod_cast hM'
  have haq : (1 : ℚ) ≤ a := by exact_mod_cast ha1
  have haq' : (a : ℚ) ≤ 4095 := by exact_mod_cast haM
  have hcaq : (c : ℚ) ≤ a := by exact_mod_cast hca
  have hc0 : (0 : ℚ) ≤ c := by positivity
  have e5 : (1 : ℚ) / 2 ^ 25 / (1 / 5000) = 1 / 2 ^ 25 * 5000 := by norm_num
  have ha1' : 999 / 1000 ≤ a' := by have := ha.lo; nlinarith
  have ha2' : a' ≤ 4100 := by have := ha.hi; nlinarith
  have ha0 : 0 < a' := by linarith
  have hi1 : (1 : ℚ) / 4100 ≤ 1 / a' := by gcongr
  have hi2 : (1 : ℚ) / a' ≤ 1000 / 999 := by
    rw [div_le_iff₀ ha0]; nlinarith
  have h1 := ha.inv (by linarith) hu (by linarith)
  have h2 := rnd16_rel (q := 1 / a') (l := 1 / 5000) (by norm_num) (Or.inr (by linarith)) (by linarith)
  rw [e5] at h2
  have h3 := h2.trans h1 (by norm_num)
  have h4 := hc.mul h3 hu (by positivity)
  set r := rnd16 (1 / a') with hrd
  have hr0 : 1 / 4150 ≤ r := by
    have := h2.lo
    norm_num at this hi1
    nlinarith
  have hr1 : r ≤ 101 / 100 := by
    have := h2.hi
    norm_num at this hi2
    nlinarith
  have hc' := hc.nonneg (by linarith)
  have hcz : c' = 0 ∨ 999 / 1000 ≤ c' := by
    rcases Nat.eq_zero_or_pos c with h0 | h0
    · left
      have := hc.2
      rw [h0] at this
      simpa using this
    · right
      have h2 : (1 : ℚ) ≤ c := by exact_mod_cast h0
      have := hc.lo
      nlinarith
  have hz : c' * r = 0 ∨ 1 / 5000 ≤ c' * r := by
    rcases hcz with h | h
    · left; rw [h, zero_mul]
    · right; nlinarith
  have hc2 : c' ≤ 4100 := by have := hc.hi; nlinarith
  have hz2 : c' * r ≤ 4100 * (101 / 100) := by gcongr
  have h6 := rnd16_rel (by norm_num : (0 : ℚ) < 1 / 5000) hz (by linarith)
  rw [e5] at h6
  have h7 := h6.trans h4 (by norm_num)
  have e : (c : ℚ) * (1 / a) = c / a := by ring
  rw [e] at h7
  set p := rnd16 (c' * r) with hpd
  have hq1 : (c : ℚ) / a ≤ 1 := by rw [div_le_one (by linarith)]; exact hcaq
  have hq0 : (0 : ℚ) ≤ (c : ℚ) / a := by positivity
  have hp2 : p ≤ 2 := by
    have h8 := h7.hi
    have h9 := quotient_rel hu hu'
    unfold relPlus at h9
    calc p ≤ _ := h8
      _ ≤ (1 + 1) * 1 := by
        refine mul_le_mul ?_ hq1 hq0 (by norm_num)
        linarith
      _ = 2 := by norm_num
  have hm2 : m ≤ 5000 := by have := hm.hi; nlinarith
  refine ⟨h7, hp2, hm2, ?_⟩
  have h9 := h7.mul hm (by positivity) hv
  have hpz : p = 0 ∨ 1 / 4500 ≤ p := by
    rcases hcz with h | h
    · left; rw [hpd, h, zero_mul, rnd16_zero]
    · right
      have h5 : (1 : ℚ) / 4200 ≤ c' * r := by nlinarith
      have := h6.lo
      norm_num at this
      nlinarith
  have hm1 : 999 / 1000 ≤ m := by have := hm.lo; nlinarith
  have hpm : p * m = 0 ∨ 1 / 5000 ≤ p * m := by
    rcases hpz with h | h
    · left; rw [h, zero_mul]
    · right; nlinarith
  have hpm2 : p * m ≤ 2 * 5000 := by
    have : 0 ≤ m := by linarith
    gcongr
  have h10 := rnd16_rel (by norm_num : (0 : ℚ) < 1 / 5000) hpm (by linarith)
  rw [e5] at h10
  have h11 := h10.trans h9 (by norm_num)
  have e' : (c : ℚ) / a * M = M * c / a := by ring
  rw [e'] at h11
  exact h11

theorem rnd16_4095 : rnd16 ((4095 : ℕ) : ℚ) = 4096 := by decide +kernel

theorem unpremulHalf_ok {d c a : ℕ} (hd : d = 10 ∨ d = 12) (hca : c ≤ a) (ha : a ≤ 2 ^ d - 1) :
    UnpremultipliedTo (if d = 10 then 500 else 300) (2 ^ d - 1) c a (unpremulN16 true d c a) := by
  unfold UnpremultipliedTo unpremulN16
  refine ⟨fun h => by rw [if_pos h], fun h => ?_⟩
  rw [if_neg h, if_pos ⟨hd, rfl⟩]
  rcases hd with rfl | rfl
  · norm_num at ha ⊢
    have h1023 : rnd16 (1023 : ℚ) = 1023 := by exact_mod_cast rnd16_nat (n := 1023) (by norm_num)
    rw [rnd16_nat (by omega), rnd16_nat (by omega), h1023]
    obtain ⟨_, _, _, h⟩ := unpremulHalf_rel (M := 1023) (c := c) (a := a) (u := 0) (v := 0) (m := 1023) (c' := c) (a' := a)
      (by norm_num) (by norm_num) hca (by omega) (by omega) le_rfl (by norm_num) (by norm_num) (by norm_num)
      (Rel.exact (by positivity)) (Rel.exact (by positivity)) (by exact_mod_cast Rel.exact (by norm_num : (0 : ℚ) ≤ 1023))
    have he := M_div_le (M := 1023) (a := a) (by omega) hca
    push_cast at he h
    rw [one_div (a : ℚ)] at h
    exact rel_final (n := 500) h (by norm_num [relPlus]) (by norm_num) (by linarith)
  · norm_num at ha ⊢
    have h4095 : rnd16 (4095 : ℚ) = 4096 := by exact_mod_cast rnd16_4095
    rw [h4095]
    obtain ⟨_, _, _, h⟩ := unpremulHalf_rel (M := 4095) (c := c) (a := a) (u := 1 / 2 ^ 11 + 1 / 2 ^ 25) (v := 1 / 4095) (m := 4096)
      (by norm_num) (by norm_num) hca (by omega) (by omega) (by norm_num) (by norm_num) (by norm_num) (by norm_num)
      (rnd16_natRel (by omega)) (rnd16_natRel (by omega)) ⟨by norm_num, by norm_num [abs_le]⟩
    have he := M_div_le (M := 4095) (a := a) (by omega) hca
    push_cast at he h
    rw [one_div (rnd16 (a : ℚ))] at h
    exact rel_final (n := 300) h (by norm_num [relPlus]) (by norm_num) (by linarith)

/-- A premultiplied colour gives at most what alpha itself gives. -/
theorem unpremulHalf_mono {d c a : ℕ} (hd : d = 10 ∨ d = 12) (hca : c ≤ a) (ha1 : 1 ≤ a) (ha : a ≤ 2 ^ d - 1) :
    unpremulN16 true d c a ≤ unpremulN16 true d a a := by
  have ha4 : a ≤ 4095 := by rcases hd with rfl | rfl <;> norm_num at ha <;> omega
  have hcq : (c : ℚ) ≤ a := by exact_mod_cast hca
  have hc0 : (0 : ℚ) ≤ c := by positivity
  have haq : (a : ℚ) ≤ 4095 := by exact_mod_cast ha4
  have ha1q : (1 : ℚ) ≤ a := by exact_mod_cast ha1
  have hra := rnd16_natRel ha4
  have hrc := rnd16_natRel (hca.trans ha4)
  have hm : ∃ v m, rnd16 ((2 ^ d - 1 : ℕ) : ℚ) = m ∧ 0 ≤ v ∧ v ≤ 1 / 1000 ∧ Rel v m ((2 ^ d - 1 : ℕ) : ℚ) := by
    rcases hd with rfl | rfl
    · exact ⟨0, _, rnd16_nat (by norm_num), by norm_num, by norm_num, Rel.exact (by positivity)⟩
    · exact ⟨1 / 4095, _, rnd16_4095, by norm_num, by norm_num, ⟨by norm_num, by norm_num [abs_le]⟩⟩
  obtain ⟨v, m, hm0, hv, hv', hmr⟩ := hm
  have hM : 1 ≤ 2 ^ d - 1 ∧ 2 ^ d - 1 ≤ 4095 := by rcases hd with rfl | rfl <;> norm_num
  have hc := unpremulHalf_rel hM.1 hM.2 hca ha1 ha4 (by norm_num) (by norm_num) hv hv' hrc hra hmr
  have hA := unpremulHalf_rel hM.1 hM.2 le_rfl ha1 ha4 (by norm_num) (by norm_num) hv hv' hra hra hmr
  have ha0 : ¬ a = 0 := by omega
  unfold unpremulN16
  simp only [if_neg ha0, hd, and_self, if_true, hm0]
  apply vcvta16_mono
  have hm1 := hmr.nonneg (by linarith)
  have hr0 : 0 ≤ rnd16 (1 / rnd16 (a : ℚ)) := by
    have h1 := hra.lo
    have : 0 < rnd16 (a : ℚ) := by norm_num at h1; nlinarith
    have h2 : (1 : ℚ) / 2 ≤ rnd16 (a : ℚ) := by norm_num at h1; nlinarith
    refine rnd16_nonneg (by positivity) ?_
    rw [div_lt_iff₀ this]; linarith
  have hcle : rnd16 (c : ℚ) ≤ rnd16 (a : ℚ) :=
    rnd16_mono (by rw [abs_of_nonneg hc0]; linarith) (by rw [abs_of_nonneg (by linarith)]; linarith) hcq
  have hc0' := hrc.nonneg (by norm_num)
  have ha0' := hra.nonneg (by norm_num)
  have hbig : ∀ {x : ℚ}, 0 ≤ x → x ≤ rnd16 (a : ℚ) → |x * rnd16 (1 / rnd16 (a : ℚ))| < 65520 := by
    intro x hx hxa
    have h1 := hra.hi
    have h3 : rnd16 (a : ℚ) ≤ 5000 := by norm_num at h1; linarith
    have h4 : rnd16 (1 / rnd16 (a : ℚ)) ≤ 3 := by
      have h1 := hra.lo
      have h2 : (1 : ℚ) / 2 ≤ rnd16 (a : ℚ) := by norm_num at h1; nlinarith
      have h3 : 1 / rnd16 (a : ℚ) ≤ 2 := by rw [div_le_iff₀ (by linarith)]; linarith
      have h5 := rnd16_err (q := 1 / rnd16 (a : ℚ)) (by rw [abs_of_nonneg (by positivity)]; linarith)
      rw [abs_of_nonneg (by positivity : 0 ≤ 1 / rnd16 (a : ℚ))] at h5
      have := (abs_le.1 h5).2
      clear h5 hc hA
      generalize 1 / rnd16 (a : ℚ) = t at *
      have e : t / 2 ^ 11 ≤ 1 / 4 := by norm_num; linarith
      have e2 : (1 : ℚ) / 2 ^ 25 ≤ 1 / 4 := by norm_num
      linarith
    rw [abs_of_nonneg (mul_nonneg hx hr0)]
    calc x * rnd16 (1 / rnd16 (a : ℚ)) ≤ 5000 * 3 := by gcongr; linarith
      _ < _ := by norm_num
  have hpc : rnd16 (rnd16 (c : ℚ) * rnd16 (1 / rnd16 (a : ℚ))) ≤ rnd16 (rnd16 (a : ℚ) * rnd16 (1 / rnd16 (a : ℚ))) :=
    rnd16_mono (hbig hc0' hcle) (hbig ha0' le_rfl) (by gcongr)
  have hp0 : 0 ≤ rnd16 (rnd16 (c : ℚ) * rnd16 (1 / rnd16 (a : ℚ))) := by
    refine rnd16_nonneg (mul_nonneg hc0' hr0) ?_
    have := hbig hc0' hcle
    rwa [abs_of_nonneg (mul_nonneg hc0' hr0)] at this
  have hpm : ∀ {p : ℚ}, 0 ≤ p → p ≤ 2 → |p * m| < 65520 := by
    intro p h0 h2
    rw [abs_of_nonneg (mul_nonneg h0 hm1)]
    calc p * m ≤ 2 * 5000 := by gcongr; exact hc.2.2.1
      _ < _ := by norm_num
  exact rnd16_mono (hpm hp0 hc.2.1) (hpm (hp0.trans hpc) hA.2.1) (by gcongr)

theorem unpremulHalf10_self {a : ℕ} (ha1 : 1 ≤ a) (ha : a ≤ 1023) : unpremulN16 true 10 a a = 1023 := by
  have key : ((List.range 1023).all fun n => decide (unpremulN16 true 10 (n + 1) (n + 1) = 1023)) = true := by decide +kernel
  rw [List.all_eq_true] at key
  have := key (a - 1) (by simp; omega)
  simp only [decide_eq_true_eq] at this
  rwa [Nat.sub_add_cancel ha1] at this

end PicScale
