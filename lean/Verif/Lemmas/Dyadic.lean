import Verif.Lemmas.WeightCentre
import Verif.SpecGeometry

/-!
Windows and raw weights when the ratio of the sizes is a dyadic fraction: binary32 arithmetic is exact.
-/

namespace PicScale

open F32 Spec

theorem rnd_dy {n : ℕ} (hn : n ≤ 149) (z : ℤ) (hz : |z| ≤ 2 ^ 24) : rnd ((z : ℚ) / 2 ^ n) = z / 2 ^ n := by
  refine rnd_exact (m := z) (e := -n) ?_ hz (by omega)
  rw [zpow_neg, zpow_natCast]; rfl

namespace Spec.DyadicRatio

variable {inn out P t : ℕ} (h : DyadicRatio inn out P t)
include h

theorem t_le : t + 1 ≤ 24 := by
  by_contra hc
  have h1 : 2 ^ 25 ≤ 2 ^ (t + 1) := Nat.pow_le_pow_right (by norm_num) (by omega)
  have := h.small
  have h2 := h.inn_pos
  nlinarith

theorem P_pos : 1 ≤ P := by
  by_contra hc
  have hP : P = 0 := by omega
  have := h.ratio
  rw [hP] at this
  have h1 := h.inn_pos
  have h2 : 0 < 2 ^ t := by positivity
  nlinarith

theorem outP_le : out * P ≤ 2 ^ 23 := by
  have := h.small
  rw [pow_succ, ← mul_assoc, h.ratio] at this
  omega

theorem out_le : out ≤ 2 ^ 23 := by
  have := h.outP_le
  have := h.P_pos
  nlinarith

theorem inn_le : inn ≤ 2 ^ 23 := by
  have h1 := h.small
  rw [pow_succ] at h1
  have h2 : 1 ≤ 2 ^ t := Nat.one_le_two_pow
  nlinarith

theorem div : (inn : ℚ) / out = P / 2 ^ t := by
  have h1 : (out : ℚ) ≠ 0 := by have := h.out_pos; positivity
  rw [div_eq_div_iff h1 (by positivity)]
  have := h.ratio
  have e : (inn : ℚ) * 2 ^ t = out * P := by exact_mod_cast this
  rw [e]; ring

theorem wScale_eq : wScale rnd inn out = P / 2 ^ t := by
  unfold wScale
  rw [RoundOK.rnd.nat (by have := h.inn_le; omega), RoundOK.rnd.nat (by have := h.out_le; omega), h.div]
  have := rnd_dy (n := t) (by have := h.t_le; omega) (P : ℤ)
    (by
      have := h.outP_le
      have := h.out_pos
      rw [abs_of_nonneg (by omega)]
      have : P ≤ 2 ^ 23 := by nlinarith
      exact_mod_cast (by omega : P ≤ 2 ^ 24))
  push_cast at this; exact this

theorem cn_le {i : ℕ} (hi : i < out) : (2 * i + 1) * P ≤ inn * 2 ^ (t + 1) - P := by
  have h1 : (2 * i + 1) * P + P ≤ 2 * out * P := by
    have : (2 * i + 1) + 1 ≤ 2 * out := by omega
    nlinarith
  rw [pow_succ, ← mul_assoc, h.ratio]
  have h2 : 2 * out * P = out * P * 2 := by ring
  omega

theorem wCenter_eq {i : ℕ} (hi : i < out) : wCenter rnd inn out i = ((2 * i + 1 : ℕ) * P : ℕ) / 2 ^ (t + 1) := by
  have hio := h.out_le
  have hc := h.cn_le hi
  have hs := h.small
  unfold wCenter
  rw [h.wScale_eq, RoundOK.rnd.nat (n := i) (by omega), RoundOK.rnd.nat (n := inn) (by have := h.inn_le; omega)]
  have e1 : rnd ((i : ℚ) + 1 / 2) = i + 1 / 2 := by
    have := RoundOK.rnd.half ((2 * i + 1 : ℕ) : ℤ) (by rw [abs_of_nonneg (by omega)]; omega)
    push_cast at this
    rw [show (i : ℚ) + 1 / 2 = (2 * i + 1) / 2 by ring]; exact this
  rw [e1]
  have e2 := rnd_dy (n := t + 1) (by have := h.t_le; omega) (((2 * i + 1 : ℕ) * P : ℕ) : ℤ)
    (by rw [abs_of_nonneg (by positivity)]; exact_mod_cast (by omega : (2 * i + 1) * P ≤ 2 ^ 24))
  have e3 : ((i : ℚ) + 1 / 2) * (P / 2 ^ t) = ((((2 * i + 1 : ℕ) * P : ℕ) : ℤ) : ℚ) / 2 ^ (t + 1) := by
    push_cast; rw [pow_succ]; field_simp
  rw [e3, e2]
  have hle : (2 * i + 1) * P ≤ inn * 2 ^ (t + 1) := by omega
  have hle' : (((2 * i + 1 : ℕ) * P : ℕ) : ℚ) ≤ inn * 2 ^ (t + 1) := by exact_mod_cast hle
  rw [min_eq_left]
  · push_cast; rfl
  · rw [Int.cast_natCast, div_le_iff₀ (by positivity)]
    exact hle'

theorem wCenter_centre {i : ℕ} (hi : i < out) : wCenter rnd inn out i = centre inn out i := by
  rw [h.wCenter_eq hi]
  unfold centre
  rw [h.div, pow_succ]
  push_cast; field_simp

theorem wCenter_shift {i m : ℕ} (hi : i + 2 ^ t * m < out) :
    wCenter rnd inn out (i + 2 ^ t * m) = wCenter rnd inn out i + (P * m : ℕ) := by
  have hi0 : i < out := by omega
  rw [h.wCenter_eq hi, h.wCenter_eq hi0]
  push_cast; rw [pow_succ]; field_simp; ring

/-- The distance of source pixel `k` to the centre, exactly. -/
theorem dist_eq {i k : ℕ} (hi : i < out) (hk : k < inn) :
    rnd (rnd k - rnd (wCenter rnd inn out i - 1 / 2)) = (k + 1 / 2 : ℚ) - wCenter rnd inn out i := by
  have hc := h.cn_le hi
  have hs := h.small
  have ht := h.t_le
  have hp : 2 ^ (t + 1) = 2 * 2 ^ t := by rw [pow_succ]; ring
  have hP := h.P_pos
  have hpt : 1 ≤ 2 ^ t := Nat.one_le_two_pow
  rw [RoundOK.rnd.nat (n := k) (by have := h.inn_le; omega), h.wCenter_eq hi]
  have hkm : (k + 1) * 2 ^ (t + 1) ≤ inn * 2 ^ (t + 1) := Nat.mul_le_mul_right _ hk
  have hsp : 2 ^ (t + 1) ≤ inn * 2 ^ (t + 1) := by have := h.inn_pos; nlinarith
  generalize hA : (2 * i + 1) * P = A at *
  have e1 : ((A : ℕ) : ℚ) / 2 ^ (t + 1) - 1 / 2 = (((A : ℤ) - 2 ^ t : ℤ) : ℚ) / 2 ^ (t + 1) := by
    push_cast; rw [pow_succ]; field_simp
  rw [e1, rnd_dy (by omega)]
  swap
  · have a1 : (A : ℤ) ≤ 2 ^ 24 := by exact_mod_cast (by omega : A ≤ 2 ^ 24)
    have a2 : (2 : ℤ) ^ t ≤ 2 ^ 24 := by exact_mod_cast (by omega : 2 ^ t ≤ 2 ^ 24)
    have a3 : (1 : ℤ) ≤ 2 ^ t := by exact_mod_cast hpt
    rw [abs_le]; constructor <;> omega
  have e2 : (k : ℚ) - (((A : ℤ) - 2 ^ t : ℤ) : ℚ) / 2 ^ (t + 1) =
      (((k : ℤ) * 2 ^ (t + 1) - A + 2 ^ t : ℤ) : ℚ) / 2 ^ (t + 1) := by
    push_cast; field_simp; ring
  rw [e2, rnd_dy (by omega)]
  · push_cast; rw [pow_succ]; field_simp; ring
  · have a1 : ((k : ℤ) + 1) * 2 ^ (t + 1) ≤ inn * 2 ^ (t + 1) := by exact_mod_cast hkm
    have a2 : (inn : ℤ) * 2 ^ (t + 1) ≤ 2 ^ 24 := by exact_mod_cast hs
    have a3 : (A : ℤ) ≤ 2 ^ 24 := by exact_mod_cast (by omega : A ≤ 2 ^ 24)
    have a4 : (0 : ℤ) ≤ k * 2 ^ (t + 1) := by positivity
    have a5 : (2 : ℤ) ^ (t + 1) = 2 * 2 ^ t := by exact_mod_cast hp
    have a6 : (1 : ℤ) ≤ 2 ^ t := by exact_mod_cast hpt
    rw [add_mul] at a1
    rw [abs_le]; constructor <;> omega

theorem c_le {i : ℕ} (hi : i < out) : 0 < wCenter rnd inn out i ∧ wCenter rnd inn out i < inn := by
  have hc := h.cn_le hi
  have hP := h.P_pos
  have hs : 0 < inn * 2 ^ (t + 1) := by have := h.inn_pos; positivity
  rw [h.wCenter_eq hi]
  constructor
  · have : 0 < (2 * i + 1) * P := by positivity
    have : (0 : ℚ) < ((2 * i + 1 : ℕ) * P : ℕ) := by exact_mod_cast this
    positivity
  · rw [div_lt_iff₀ (by positivity)]
    exact_mod_cast (by omega : (2 * i + 1) * P < inn * 2 ^ (t + 1))

/-- `c ± r` for a whole or half radius `K / 2` inside the exact range. -/
theorem edge_eq {i : ℕ} {K : ℤ} (hi : i < out) (hl : -(inn : ℚ) ≤ wCenter rnd inn out i + K / 2)
    (hu : wCenter rnd inn out i + K / 2 ≤ inn) :
    rnd (wCenter rnd inn out i + K / 2) = wCenter rnd inn out i + K / 2 := by
  have hs := h.small
  rw [h.wCenter_eq hi] at hl hu ⊢
  generalize (2 * i + 1) * P = A at *
  have e1 : ((A : ℕ) : ℚ) / 2 ^ (t + 1) + K / 2 = (((A : ℤ) + K * 2 ^ t : ℤ) : ℚ) / 2 ^ (t + 1) := by
    push_cast; rw [pow_succ]; field_simp
  rw [e1] at hl hu ⊢
  refine rnd_dy (by have := h.t_le; omega) _ ?_
  rw [div_le_iff₀ (by positivity)] at hu
  rw [le_div_iff₀ (by positivity)] at hl
  have hu' : (A : ℤ) + K * 2 ^ t ≤ inn * 2 ^ (t + 1) := by exact_mod_cast hu
  have hl' : -((inn : ℤ) * 2 ^ (t + 1)) ≤ (A : ℤ) + K * 2 ^ t := by
    have : ((-((inn : ℤ) * 2 ^ (t + 1)) : ℤ) : ℚ) ≤ (((A : ℤ) + K * 2 ^ t : ℤ) : ℚ) := by
      push_cast at hl ⊢; linarith
    exact_mod_cast this
  have a2 : (inn : ℤ) * 2 ^ (t + 1) ≤ 2 ^ 24 := by exact_mod_cast hs
  rw [abs_le]; constructor <;> omega

end Spec.DyadicRatio

/-- The radius, when the kernel is not enormous. -/
theorem wRadius_eq {f : Filter} {inn out : ℕ} (hk : wKernelSize rnd f inn out ≤ 2 ^ 24) :
    wRadius rnd f inn out = (wKernelSize rnd f inn out : ℚ) / 2 := by
  unfold wRadius
  rw [RoundOK.rnd.nat hk]
  have := RoundOK.rnd.half (wKernelSize rnd f inn out : ℤ) (by rw [abs_of_nonneg (by omega)]; exact_mod_cast hk)
  push_cast at this; exact this

/-- Windows that do not touch the edges of the source, exactly. -/
theorem inner_window {f : Filter} {inn out P t i : ℕ} (h : DyadicRatio inn out P t) (hi : i < out)
    (hs : 0 < wStart rnd f inn out i) (he : wEnd rnd f inn out i < inn) :
    wKernelSize rnd f inn out ≤ 2 ^ 24 ∧
    (wStart rnd f inn out i : ℤ) = ⌊wCenter rnd inn out i - (wKernelSize rnd f inn out : ℚ) / 2⌋ ∧
    (wEnd rnd f inn out i : ℤ) = min ⌈wCenter rnd inn out i + (wKernelSize rnd f inn out : ℚ) / 2⌉
      (⌊wCenter rnd inn out i - (wKernelSize rnd f inn out : ℚ) / 2⌋ + wKernelSize rnd f inn out) := by
  obtain ⟨c0, c1⟩ := h.c_le hi
  have hin := h.inn_le
  have hrd : (inn : ℚ) ≤ 2 ^ 23 := by exact_mod_cast hin
  have hfl : 1 ≤ ⌊rnd (wCenter rnd inn out i - wRadius rnd f inn out)⌋ := by
    unfold wStart F32.toUsize at hs; omega
  have hks : wKernelSize rnd f inn out ≤ 2 ^ 24 := by
    by_contra hc
    have h1 : (2 : ℚ) ^ 24 ≤ rnd (wKernelSize rnd f inn out) := by
      have := RoundOK.rnd.mono (show ((2 ^ 24 : ℕ) : ℚ) ≤ wKernelSize rnd f inn out by
        exact_mod_cast (by omega : 2 ^ 24 ≤ wKernelSize rnd f inn out))
      rw [RoundOK.rnd.nat (le_refl _)] at this
      push_cast at this; exact this
    have h2 : (2 : ℚ) ^ 23 ≤ wRadius rnd f inn out := by
      unfold wRadius
      have := RoundOK.rnd.mono (show ((2 ^ 23 : ℕ) : ℚ) ≤ rnd (wKernelSize rnd f inn out) / 2 by push_cast; linarith)
      rw [RoundOK.rnd.nat (by norm_num)] at this
      push_cast at this; exact this
    have h3 : rnd (wCenter rnd inn out i - wRadius rnd f inn out) ≤ 0 := by
      have := RoundOK.rnd.mono (show wCenter rnd inn out i - wRadius rnd f inn out ≤ 0 by linarith)
      rwa [RoundOK.rnd.zero] at this
    rw [Int.le_floor] at hfl
    push_cast at hfl; linarith
  have hr := wRadius_eq hks
  generalize hK : wKernelSize rnd f inn out = K at *
  have hpos : 0 < wCenter rnd inn out i - (K : ℚ) / 2 := by
    by_contra hc
    have := RoundOK.rnd.mono (show wCenter rnd inn out i - wRadius rnd f inn out ≤ 0 by rw [hr]; linarith)
    rw [RoundOK.rnd.zero] at this
    rw [Int.le_floor] at hfl
    push_cast at hfl; linarith
  have hK0 : (0 : ℚ) ≤ K := by positivity
  have e1 := h.edge_eq (K := -(K : ℤ)) hi (by push_cast; linarith) (by push_cast; linarith)
  rw [show wCenter rnd inn out i + ((-(K : ℤ) : ℤ) : ℚ) / 2 = wCenter rnd inn out i - (K : ℚ) / 2 by push_cast; ring] at e1
  have hS : (wStart rnd f inn out i : ℤ) = ⌊wCenter rnd inn out i - (K : ℚ) / 2⌋ := by
    unfold wStart F32.toUsize
    rw [hr, e1]
    rw [hr, e1] at hfl
    omega
  have hSn : wStart rnd f inn out i ≤ inn := by
    have : ⌊wCenter rnd inn out i - (K : ℚ) / 2⌋ < (inn : ℤ) := by
      rw [Int.floor_lt]; push_cast; linarith
    omega
  have hE : wEnd rnd f inn out i = F32.toUsize ⌊min (min (⌈rnd (wCenter rnd inn out i + (K : ℚ) / 2)⌉ : ℚ)
      (((wStart rnd f inn out i + K : ℕ)) : ℚ)) (inn : ℚ)⌋ := by
    unfold wEnd
    rw [hr, hK, RoundOK.rnd.nat (n := wStart rnd f inn out i) (by omega), RoundOK.rnd.nat (n := K) hks,
      RoundOK.rnd.nat (n := inn) (by omega)]
    congr 3
    have hK2 : (K : ℚ) / 2 < 2 ^ 23 := by linarith
    have hb : wStart rnd f inn out i + K ≤ 2 ^ 24 := by
      have a : ((wStart rnd f inn out i : ℤ) : ℚ) ≤ wCenter rnd inn out i - (K : ℚ) / 2 := by
        rw [hS]; exact Int.floor_le _
      have : ((wStart rnd f inn out i + K : ℕ) : ℚ) ≤ 2 ^ 24 := by push_cast at a ⊢; linarith
      exact_mod_cast this
    rw [← RoundOK.rnd.nat hb]; push_cast; rfl
  have key : ∀ z : ℤ, F32.toUsize ⌊min (min (z : ℚ) (((wStart rnd f inn out i + K : ℕ)) : ℚ)) (inn : ℚ)⌋ =
      (min (min z ((wStart rnd f inn out i + K : ℕ) : ℤ)) (inn : ℤ)).toNat := by
    intro z
    unfold F32.toUsize
    have : min (min (z : ℚ) (((wStart rnd f inn out i + K : ℕ)) : ℚ)) (inn : ℚ) =
        ((min (min z ((wStart rnd f inn out i + K : ℕ) : ℤ)) (inn : ℤ) : ℤ) : ℚ) := by push_cast; rfl
    rw [this, Int.floor_intCast]
  rw [key] at hE
  have hcr : wCenter rnd inn out i + (K : ℚ) / 2 < inn := by
    by_contra hc
    have h1 : (inn : ℤ) ≤ ⌈rnd (wCenter rnd inn out i + (K : ℚ) / 2)⌉ := by
      have := RoundOK.rnd.mono (show ((inn : ℕ) : ℚ) ≤ wCenter rnd inn out i + (K : ℚ) / 2 by linarith)
      rw [RoundOK.rnd.nat (by omega)] at this
      have h2 : ((inn : ℤ) : ℚ) ≤ (⌈rnd (wCenter rnd inn out i + (K : ℚ) / 2)⌉ : ℚ) := le_trans (by exact_mod_cast this) (Int.le_ceil _)
      exact_mod_cast h2
    have h2 : wStart rnd f inn out i + K < inn := by omega
    have h3 := Int.lt_floor_add_one (wCenter rnd inn out i - (K : ℚ) / 2)
    rw [← hS] at h3
    have h4 : ((wStart rnd f inn out i + K + 1 : ℕ) : ℚ) ≤ inn := by exact_mod_cast h2
    push_cast at h3 h4
    linarith
  have e2 := h.edge_eq (K := (K : ℤ)) hi (by push_cast; linarith) (by push_cast; linarith)
  push_cast at e2
  rw [e2] at hE
  refine ⟨hks, hS, ?_⟩
  rw [← hS]
  have hpos2 : 0 ≤ ⌈wCenter rnd inn out i + (K : ℚ) / 2⌉ := Int.ceil_nonneg (by linarith)
  omega

/-- Raw weights depend on the exact distance only. -/
theorem rawWeight_dist {f : Filter} {inn out P t i j k l : ℕ} (h : DyadicRatio inn out P t) (hi : i < out)
    (hj : j < out) (hk : k < inn) (hl : l < inn)
    (hd : |(k + 1 / 2 : ℚ) - wCenter rnd inn out i| = |(l + 1 / 2 : ℚ) - wCenter rnd inn out j|) :
    rawWeight rnd f inn out i k = rawWeight rnd f inn out j l := by
  unfold rawWeight
  simp only
  rw [h.dist_eq hi hk, h.dist_eq hj hl, hd]

/-- Moving by a whole period moves the window and keeps the weights. -/
theorem genRow_shift {f : Filter} {inn out P t i m : ℕ} (h : DyadicRatio inn out P t) (hi : i + 2 ^ t * m < out)
    (hb : Inner inn (genBound rnd f inn out i)) (hb' : Inner inn (genBound rnd f inn out (i + 2 ^ t * m)))
    (hw : ∀ i, i < out → wStart rnd f inn out i ≤ wEnd rnd f inn out i) :
    genBound rnd f inn out (i + 2 ^ t * m) =
        ⟨(genBound rnd f inn out i).start + P * m, (genBound rnd f inn out i).size⟩ ∧
      genRow rnd f inn out (i + 2 ^ t * m) = genRow rnd f inn out i := by
  have hi0 : i < out := by omega
  have w0 := hw i hi0
  have w1 := hw _ hi
  obtain ⟨s0, e0⟩ := hb
  obtain ⟨s1, e1⟩ := hb'
  simp only [genBound] at s0 e0 s1 e1
  obtain ⟨k0, S0, E0⟩ := inner_window (f := f) h hi0 s0 (by omega)
  obtain ⟨k1, S1, E1⟩ := inner_window (f := f) h hi s1 (by omega)
  have hc := h.wCenter_shift hi
  rw [hc] at S1 E1
  have f1 : ⌊wCenter rnd inn out i + (P * m : ℕ) - (wKernelSize rnd f inn out : ℚ) / 2⌋ =
      ⌊wCenter rnd inn out i - (wKernelSize rnd f inn out : ℚ) / 2⌋ + (P * m : ℕ) := by
    rw [← Int.floor_add_natCast]; congr 1; ring
  have f2 : ⌈wCenter rnd inn out i + (P * m : ℕ) + (wKernelSize rnd f inn out : ℚ) / 2⌉ =
      ⌈wCenter rnd inn out i + (wKernelSize rnd f inn out : ℚ) / 2⌉ + (P * m : ℕ) := by
    rw [← Int.ceil_add_natCast]; congr 1; ring
  rw [f1] at S1
  rw [f1, f2] at E1
  have hS : wStart rnd f inn out (i + 2 ^ t * m) = wStart rnd f inn out i + P * m := by omega
  have hE : wEnd rnd f inn out (i + 2 ^ t * m) = wEnd rnd f inn out i + P * m := by omega
  have hr : rawRow rnd f inn out (i + 2 ^ t * m) = rawRow rnd f inn out i := by
    unfold rawRow
    rw [hS, hE, Nat.add_sub_add_right]
    refine List.map_congr_left fun j hj => ?_
    rw [List.mem_range] at hj
    refine rawWeight_dist h hi hi0 (by omega) (by omega) ?_
    rw [hc]; congr 1; push_cast; ring
  refine ⟨?_, ?_⟩
  · simp only [genBound, hS, hE, Nat.add_sub_add_right]
  · unfold genRow; rw [hr]

/-- Every window, exactly: the interval `[c - K/2, c + K/2]` rounded outwards, cut to `K` pixels on the right
and to the source. -/
theorem window_eq {f : Filter} {inn out P t i : ℕ} (h : DyadicRatio inn out P t) (hi : i < out)
    (hk : wKernelSize rnd f inn out ≤ 2 ^ 24) :
    (wStart rnd f inn out i : ℤ) = max ⌊wCenter rnd inn out i - (wKernelSize rnd f inn out : ℚ) / 2⌋ 0 ∧
    (wEnd rnd f inn out i : ℤ) = min (min ⌈wCenter rnd inn out i + (wKernelSize rnd f inn out : ℚ) / 2⌉
      (wStart rnd f inn out i + wKernelSize rnd f inn out)) inn := by
  obtain ⟨c0, c1⟩ := h.c_le hi
  have hin := h.inn_le
  have hrd : (inn : ℚ) ≤ 2 ^ 23 := by exact_mod_cast hin
  have hr := wRadius_eq hk
  have hE0 : wEnd rnd f inn out i = F32.toUsize ⌊min (min (⌈rnd (wCenter rnd inn out i + wRadius rnd f inn out)⌉ : ℚ)
    (rnd (rnd (wStart rnd f inn out i) + rnd (wKernelSize rnd f inn out)))) (rnd inn)⌋ := rfl
  have hS0 : wStart rnd f inn out i = F32.toUsize (max ⌊rnd (wCenter rnd inn out i - wRadius rnd f inn out)⌋ 0) := rfl
  rw [hr, RoundOK.rnd.nat (n := inn) (by omega), RoundOK.rnd.nat hk] at hE0
  rw [hr] at hS0
  generalize hK : wKernelSize rnd f inn out = K at *
  have hK0 : (0 : ℚ) ≤ K := by positivity
  have hS : (wStart rnd f inn out i : ℤ) = max ⌊wCenter rnd inn out i - (K : ℚ) / 2⌋ 0 := by
    rw [hS0]; unfold F32.toUsize
    by_cases hp : 0 ≤ wCenter rnd inn out i - (K : ℚ) / 2
    · have e1 := h.edge_eq (K := -(K : ℤ)) hi (by push_cast; linarith) (by push_cast; linarith)
      rw [show wCenter rnd inn out i + ((-(K : ℤ) : ℤ) : ℚ) / 2 = wCenter rnd inn out i - (K : ℚ) / 2 by push_cast; ring] at e1
      rw [e1]; omega
    · have a1 : rnd (wCenter rnd inn out i - (K : ℚ) / 2) ≤ 0 := by
        have := RoundOK.rnd.mono (show wCenter rnd inn out i - (K : ℚ) / 2 ≤ 0 by linarith)
        rwa [RoundOK.rnd.zero] at this
      have a2 : ⌊rnd (wCenter rnd inn out i - (K : ℚ) / 2)⌋ ≤ 0 := by
        have := Int.floor_mono a1; simpa using this
      have a3 : ⌊wCenter rnd inn out i - (K : ℚ) / 2⌋ ≤ 0 := by
        have := Int.floor_mono (show wCenter rnd inn out i - (K : ℚ) / 2 ≤ 0 by linarith); simpa using this
      omega
  have hSn : wStart rnd f inn out i ≤ inn := by
    have : ⌊wCenter rnd inn out i - (K : ℚ) / 2⌋ < (inn : ℤ) := by
      rw [Int.floor_lt]; push_cast; linarith
    omega
  refine ⟨hS, ?_⟩
  rw [RoundOK.rnd.nat (n := wStart rnd f inn out i) (by omega)] at hE0
  have key : ∀ z : ℤ, ∀ w : ℕ, F32.toUsize ⌊min (min (z : ℚ) (w : ℚ)) (inn : ℚ)⌋ =
      (min (min z (w : ℤ)) (inn : ℤ)).toNat := by
    intro z w
    unfold F32.toUsize
    have : min (min (z : ℚ) (w : ℚ)) (inn : ℚ) = ((min (min z (w : ℤ)) (inn : ℤ) : ℤ) : ℚ) := by push_cast; rfl
    rw [this, Int.floor_intCast]
  have hZ : ∃ z : ℤ, ⌈rnd (wCenter rnd inn out i + (K : ℚ) / 2)⌉ = z ∧
      min z inn = min ⌈wCenter rnd inn out i + (K : ℚ) / 2⌉ inn := by
    by_cases hu : wCenter rnd inn out i + (K : ℚ) / 2 ≤ inn
    · have e2 := h.edge_eq (K := (K : ℤ)) hi (by push_cast; linarith) (by push_cast; linarith)
      push_cast at e2
      rw [e2]
      exact ⟨_, rfl, rfl⟩
    · refine ⟨_, rfl, ?_⟩
      have a1 : ((inn : ℤ) : ℚ) ≤ wCenter rnd inn out i + (K : ℚ) / 2 := by push_cast; linarith
      have a2 : ((inn : ℤ) : ℚ) ≤ rnd (wCenter rnd inn out i + (K : ℚ) / 2) := by
        have := RoundOK.rnd.mono a1
        rwa [RoundOK.rnd.int _ (by rw [abs_of_nonneg (by omega)]; omega)] at this
      have a3 : (inn : ℤ) ≤ ⌈rnd (wCenter rnd inn out i + (K : ℚ) / 2)⌉ := by
        exact_mod_cast le_trans a2 (Int.le_ceil _)
      have a4 : (inn : ℤ) ≤ ⌈wCenter rnd inn out i + (K : ℚ) / 2⌉ := by
        exact_mod_cast le_trans a1 (Int.le_ceil _)
      omega
  obtain ⟨z, z1, z2⟩ := hZ
  have hz0 : 0 ≤ ⌈wCenter rnd inn out i + (K : ℚ) / 2⌉ := Int.ceil_nonneg (by linarith)
  rw [z1] at hE0
  by_cases hb : wStart rnd f inn out i + K ≤ 2 ^ 24
  · have e3 : rnd ((wStart rnd f inn out i : ℚ) + K) = ((wStart rnd f inn out i + K : ℕ) : ℚ) := by
      rw [← RoundOK.rnd.nat hb]; push_cast; rfl
    rw [e3, key] at hE0
    omega
  · have a1 : ((inn : ℕ) : ℚ) ≤ rnd ((wStart rnd f inn out i : ℚ) + K) := by
      have := RoundOK.rnd.mono (show ((inn : ℕ) : ℚ) ≤ (wStart rnd f inn out i : ℚ) + K by
        exact_mod_cast (by omega : inn ≤ wStart rnd f inn out i + K))
      rwa [RoundOK.rnd.nat (by omega)] at this
    have e3 : min (min (z : ℚ) (rnd ((wStart rnd f inn out i : ℚ) + K))) (inn : ℚ) =
        min (min (z : ℚ) (inn : ℚ)) (inn : ℚ) := by
      rw [min_assoc, min_eq_right a1, min_assoc, min_self]
    rw [e3, key] at hE0
    omega

/-- A window whose left end lies in the first half of a pixel contains every pixel nearer than `K / 2`. -/
theorem window_covers {f : Filter} {inn out P t i : ℕ} (h : DyadicRatio inn out P t) (hi : i < out)
    (hk : wKernelSize rnd f inn out ≤ 2 ^ 24)
    (hfr : wCenter rnd inn out i - (wKernelSize rnd f inn out : ℚ) / 2 ≤
      ⌊wCenter rnd inn out i - (wKernelSize rnd f inn out : ℚ) / 2⌋ + 1 / 2) :
    Covers inn (genBound rnd f inn out i) (centre inn out i) ((wKernelSize rnd f inn out : ℚ) / 2) := by
  obtain ⟨S, E⟩ := window_eq (f := f) h hi hk
  rw [← h.wCenter_centre hi]
  intro k hkn hd
  rw [abs_lt] at hd
  generalize hK : wKernelSize rnd f inn out = K at *
  have a1 : ⌊wCenter rnd inn out i - (K : ℚ) / 2⌋ ≤ (k : ℤ) := by
    have := Int.floor_le (wCenter rnd inn out i - (K : ℚ) / 2)
    have h2 : ((⌊wCenter rnd inn out i - (K : ℚ) / 2⌋ : ℤ) : ℚ) < ((k : ℤ) : ℚ) + 1 := by push_cast; linarith
    have h3 : ⌊wCenter rnd inn out i - (K : ℚ) / 2⌋ < (k : ℤ) + 1 := by exact_mod_cast h2
    omega
  have a2 : (k : ℤ) < ⌈wCenter rnd inn out i + (K : ℚ) / 2⌉ := by
    rw [Int.lt_ceil]; push_cast; linarith
  have a3 : (k : ℤ) < ⌊wCenter rnd inn out i - (K : ℚ) / 2⌋ + K := by
    have : ((k : ℤ) : ℚ) < ((⌊wCenter rnd inn out i - (K : ℚ) / 2⌋ + K : ℤ) : ℚ) := by push_cast; linarith
    exact_mod_cast this
  simp only [genBound]
  omega

end PicScale
