import Verif.Lemmas.RingingKernels

/-!
Sums of signed binary32 weights: near one, and what their quantised values add up to.
-/

namespace PicScale

open F32 Finset

/-- If an image is reduced to half its size or less, the two source positions next to the centre of a window belong to
it, and both lie within half a unit of the kernel's centre. -/
theorem two_taps {f : Filter} (hm : f.minKernelSize = 2) (hres : f.isResizable = true) {inn out i : ℕ}
    (h2 : inn ≤ 2 ^ 15) (hr : 2 * out ≤ inn) (hi : i < out) :
    ∃ k, wStart F32.rnd f inn out i ≤ k ∧ k + 2 ≤ wEnd F32.rnd f inn out i ∧ ∀ l, l = k ∨ l = k + 1 →
      F32.rnd (|F32.rnd (F32.rnd (l : ℕ) - F32.rnd (wCenter F32.rnd inn out i - 1 / 2))| * wFilterScale F32.rnd f inn out) ≤ 1 / 2 := by
  have ho : 1 ≤ out := by omega
  have hinnq : (inn : ℚ) ≤ 2 ^ 15 := by exact_mod_cast h2
  have hoq : (1 : ℚ) ≤ out := by exact_mod_cast ho
  have hrq : 2 * (out : ℚ) ≤ inn := by exact_mod_cast hr
  have hoo : F32.rnd (out : ℚ) = out := RoundOK.rnd.nat (by omega)
  have hii : F32.rnd (inn : ℚ) = inn := RoundOK.rnd.nat (by omega)
  have two : F32.rnd 2 = 2 := by have := RoundOK.rnd.nat (n := 2) (by norm_num); push_cast at this; exact this
  have hsc2 : 2 ≤ wScale F32.rnd inn out := by
    unfold wScale
    rw [hoo, hii]
    have := RoundOK.rnd.mono (show 2 ≤ (inn : ℚ) / out by rw [le_div_iff₀ (by linarith)]; exact hrq)
    rwa [two] at this
  have hscu : wScale F32.rnd inn out ≤ (inn : ℚ) / out * (1 + 1 / 2 ^ 23) := by
    unfold wScale
    rw [hoo, hii]
    have h0 : (2 : ℚ) ≤ (inn : ℚ) / out := by rw [le_div_iff₀ (by linarith)]; exact hrq
    have := rnd_err_le ((inn : ℚ) / out)
    rw [abs_of_nonneg (show 0 ≤ (inn : ℚ) / out by linarith), abs_le] at this
    have e : (1 : ℚ) / 2 ^ 150 ≤ (inn : ℚ) / out / 2 ^ 24 := by
      rw [le_div_iff₀ (by positivity)]
      refine le_trans ?_ h0
      norm_num
    have e2 : (inn : ℚ) / out * (1 + 1 / 2 ^ 23) = (inn : ℚ) / out + (inn : ℚ) / out / 2 ^ 24 + (inn : ℚ) / out / 2 ^ 24 := by ring
    rw [e2]; linarith [this.2]
  have hcut2 : 2 ≤ wCutoff F32.rnd f inn out := by
    unfold wCutoff
    rw [if_pos hres]
    exact le_trans hsc2 (le_max_left _ _)
  have hfs : wFilterScale F32.rnd f inn out ≤ 1 / 2 := by
    unfold wFilterScale
    have := RoundOK.rnd.mono (show 1 / wCutoff F32.rnd f inn out ≤ ((1 : ℤ) : ℚ) / 2 by
      push_cast
      exact one_div_le_one_div_of_le (by norm_num) hcut2)
    rw [RoundOK.rnd.half _ (by norm_num)] at this
    push_cast at this; exact this
  have hfs0 : 0 ≤ wFilterScale F32.rnd f inn out := RoundOK.rnd.nonneg (by positivity)
  have hks4 : 4 ≤ wKernelSize F32.rnd f inn out := by
    unfold wKernelSize
    rw [hm]
    have := RoundOK.rnd.mono (show ((4 : ℕ) : ℚ) ≤ 2 * wCutoff F32.rnd f inn out by push_cast; linarith)
    rw [RoundOK.rnd.nat (by norm_num)] at this
    push_cast at this
    unfold F32.toUsize F32.round
    rw [if_pos (by linarith)]
    have : (4 : ℤ) ≤ ⌊F32.rnd (2 * wCutoff F32.rnd f inn out) + 1 / 2⌋ := by
      rw [Int.le_floor]; push_cast; linarith
    omega
  obtain ⟨k1, k2⟩ := wKernelSize_range RoundOK.rnd f (inn := inn) (out := out) (by omega) ho hm
  -- the centre
  have hc1 : 1 ≤ wCenter F32.rnd inn out i := by
    unfold wCenter
    refine le_min (RoundOK.rnd.one_le ?_) (by rw [hii]; linarith)
    have hiq : (0 : ℚ) ≤ i := by positivity
    have : 1 / 2 ≤ F32.rnd (F32.rnd (i : ℚ) + 1 / 2) := by
      have := RoundOK.rnd.mono (show ((1 : ℤ) : ℚ) / 2 ≤ F32.rnd (i : ℚ) + 1 / 2 by
        push_cast
        have := RoundOK.rnd.nonneg hiq
        linarith)
      rw [RoundOK.rnd.half _ (by norm_num)] at this
      push_cast at this; exact this
    nlinarith
  have hcu : wCenter F32.rnd inn out i ≤ inn - 1 + 1 / 100 := by
    unfold wCenter
    refine le_trans (min_le_left _ _) ?_
    have e1 : F32.rnd (F32.rnd (i : ℚ) + 1 / 2) = (i : ℚ) + 1 / 2 := by
      rw [RoundOK.rnd.nat (by omega : i ≤ 2 ^ 24)]
      have := RoundOK.rnd.half (2 * i + 1 : ℤ) (by rw [abs_of_nonneg (by omega)]; omega)
      push_cast at this
      rw [show (i : ℚ) + 1 / 2 = (2 * i + 1) / 2 by ring]; exact this
    rw [e1]
    have hiq : (i : ℚ) + 1 ≤ out := by exact_mod_cast hi
    have hi0 : (0 : ℚ) ≤ i := by positivity
    have p1 : ((i : ℚ) + 1 / 2) * wScale F32.rnd inn out ≤ (inn - 1) * (1 + 1 / 2 ^ 23) := by
      have : ((i : ℚ) + 1 / 2) * ((inn : ℚ) / out) ≤ inn - 1 := by
        have : ((i : ℚ) + 1 / 2) * ((inn : ℚ) / out) ≤ ((out : ℚ) - 1 / 2) * ((inn : ℚ) / out) :=
          mul_le_mul_of_nonneg_right (by linarith) (by positivity)
        refine le_trans this ?_
        rw [mul_div_assoc', div_le_iff₀ (by linarith)]
        nlinarith
      have t : ((i : ℚ) + 1 / 2) * wScale F32.rnd inn out ≤ ((i : ℚ) + 1 / 2) * ((inn : ℚ) / out * (1 + 1 / 2 ^ 23)) :=
        mul_le_mul_of_nonneg_left hscu (by linarith)
      refine le_trans t ?_
      rw [← mul_assoc]
      exact mul_le_mul_of_nonneg_right this (by norm_num)
    have p0 : 0 ≤ ((i : ℚ) + 1 / 2) * wScale F32.rnd inn out := mul_nonneg (by linarith) (by linarith)
    have p2 : ((inn : ℚ) - 1) * (1 + 1 / 2 ^ 23) ≤ inn - 1 + 1 / 256 := by
      have : (inn : ℚ) * (1 / 2 ^ 23) ≤ 1 / 256 := le_trans (mul_le_mul_of_nonneg_right hinnq (by positivity)) (by norm_num)
      rw [mul_add, mul_one, sub_mul]
      have : (0 : ℚ) ≤ 1 * (1 / 2 ^ 23) := by positivity
      linarith
    have p3 := rnd_within (show |((i : ℚ) + 1 / 2) * wScale F32.rnd inn out| ≤ 2 ^ 15 by
      rw [abs_of_nonneg p0]
      linarith)
    have p4 : (2 : ℚ) ^ 15 / 2 ^ 24 + 1 / 2 ^ 150 ≤ 1 / 400 := by norm_num
    rw [abs_le] at p3
    linarith [p3.2]
  set c := wCenter F32.rnd inn out i with hcd
  set ks := wKernelSize F32.rnd f inn out with hksd
  have hr2 : wRadius F32.rnd f inn out = (ks : ℚ) / 2 := by
    unfold wRadius
    rw [← hksd, RoundOK.rnd.nat k2]
    have := RoundOK.rnd.half (ks : ℤ) (by rw [abs_of_nonneg (by omega)]; exact_mod_cast k2)
    push_cast at this; exact this
  have hksq : (4 : ℚ) ≤ ks := by exact_mod_cast hks4
  have hks16 : (ks : ℚ) ≤ 2 ^ 16 + 1 := by
    have hcutu : wCutoff F32.rnd f inn out ≤ 2 ^ 15 := by
      unfold wCutoff
      rw [if_pos hres]
      refine max_le ?_ (by norm_num)
      unfold wScale
      rw [hoo, hii]
      have h3 : (inn : ℚ) / out ≤ ((2 ^ 15 : ℕ) : ℚ) := by
        rw [div_le_iff₀ (by linarith)]
        push_cast
        nlinarith
      have := RoundOK.rnd.mono h3
      rw [RoundOK.rnd.nat (by norm_num)] at this
      push_cast at this; exact this
    have e : (ks : ℚ) = (F32.round (F32.rnd (2 * wCutoff F32.rnd f inn out)) : ℚ) := by
      have hk0 : 1 ≤ wKernelSize F32.rnd f inn out := by omega
      rw [hksd]
      unfold wKernelSize at hk0 ⊢
      rw [hm] at hk0 ⊢
      unfold F32.toUsize at hk0 ⊢
      have h3 := Int.toNat_of_nonneg (show (0 : ℤ) ≤ F32.round (F32.rnd (2 * wCutoff F32.rnd f inn out)) by omega)
      exact_mod_cast h3
    rw [e]
    have a := F32.round_err (F32.rnd (2 * wCutoff F32.rnd f inn out))
    have b := RoundOK.rnd.mono (show 2 * wCutoff F32.rnd f inn out ≤ ((2 ^ 16 : ℕ) : ℚ) by push_cast; linarith)
    rw [RoundOK.rnd.nat (by norm_num)] at b
    push_cast at b
    rw [abs_le] at a
    linarith [a.2]
  have hm0 := rnd_within (show |c - 1 / 2| ≤ 2 ^ 15 by rw [abs_le]; constructor <;> linarith)
  have hm1 : (2 : ℚ) ^ 15 / 2 ^ 24 + 1 / 2 ^ 150 ≤ 1 / 400 := by norm_num
  rw [abs_le] at hm0
  obtain ⟨p, hp⟩ : ∃ p, p = F32.rnd (c - 1 / 2) := ⟨_, rfl⟩
  rw [← hp] at hm0 ⊢
  have f1 := Int.floor_le p
  have f2 := Int.lt_floor_add_one p
  have hF0 : 0 ≤ ⌊p⌋ := Int.floor_nonneg.2 (by linarith [hm0.1])
  obtain ⟨k, hk⟩ := Int.eq_ofNat_of_zero_le hF0
  rw [hk] at f1 f2
  push_cast at f1 f2
  have hkn : k + 2 ≤ inn := by
    have : ((k + 1 : ℕ) : ℚ) < (inn : ℕ) := by push_cast; linarith [hm0.2]
    have : k + 1 < inn := by exact_mod_cast this
    omega
  have hw0 := rnd_within (show |c - (ks : ℚ) / 2| ≤ 2 ^ 17 by rw [abs_le]; constructor <;> linarith)
  have hw1 := rnd_within (show |c + (ks : ℚ) / 2| ≤ 2 ^ 17 by rw [abs_le]; constructor <;> linarith)
  have hw2 : (2 : ℚ) ^ 17 / 2 ^ 24 + 1 / 2 ^ 150 ≤ 1 / 100 := by norm_num
  rw [abs_le] at hw0 hw1
  have hstart : (wStart F32.rnd f inn out i : ℤ) = max ⌊F32.rnd (c - ks / 2)⌋ 0 := by
    unfold wStart F32.toUsize
    rw [← hcd, hr2]
    omega
  have hs1 : wStart F32.rnd f inn out i ≤ k := by
    have : ⌊F32.rnd (c - ks / 2)⌋ ≤ ⌊p⌋ := Int.floor_mono (by rw [hp]; exact RoundOK.rnd.mono (by linarith))
    omega
  have hs2 : k + 2 ≤ wStart F32.rnd f inn out i + ks := by
    have a := Int.lt_floor_add_one (F32.rnd (c - ks / 2))
    have b : ((k + 1 : ℤ) : ℚ) < ((⌊F32.rnd (c - ks / 2)⌋ + ks : ℤ) : ℚ) := by
      push_cast
      linarith [hw0.1, hm0.2]
    have b' : (k + 1 : ℤ) < ⌊F32.rnd (c - ks / 2)⌋ + ks := by exact_mod_cast b
    omega
  refine ⟨k, hs1, ?_, ?_⟩
  · unfold wEnd
    rw [← hcd, hr2, ← hksd, RoundOK.rnd.nat k2, hii]
    have hρs : F32.rnd (wStart F32.rnd f inn out i : ℚ) = wStart F32.rnd f inn out i := RoundOK.rnd.nat (by omega)
    rw [hρs]
    have key : ((k : ℤ) + 2) ≤ ⌊min (min (⌈F32.rnd (c + (ks : ℚ) / 2)⌉ : ℚ)
        (F32.rnd ((wStart F32.rnd f inn out i : ℚ) + (ks : ℚ)))) (inn : ℚ)⌋ := by
      rw [Int.le_floor]
      push_cast
      refine le_min (le_min ?_ ?_) ?_
      · refine le_trans ?_ (Int.le_ceil _)
        linarith [hw1.1, hm0.2]
      · have hs2q : (((k + 2 : ℕ) : ℕ) : ℚ) ≤ (wStart F32.rnd f inn out i : ℚ) + ks := by exact_mod_cast hs2
        have := RoundOK.rnd.mono hs2q
        rw [RoundOK.rnd.nat (by omega)] at this
        push_cast at this; exact this
      · exact_mod_cast hkn
    unfold F32.toUsize
    omega
  · have near : ∀ l : ℕ, l ≤ inn → |(l : ℚ) - p| ≤ 1 →
        F32.rnd (|F32.rnd (F32.rnd l - p)| * wFilterScale F32.rnd f inn out) ≤ 1 / 2 := by
      intro l hl h
      rw [RoundOK.rnd.nat (by omega : l ≤ 2 ^ 24)]
      have h3 : |F32.rnd ((l : ℚ) - p)| ≤ 1 := by
        rw [abs_le] at h ⊢
        have a := RoundOK.rnd.mono (show ((-1 : ℤ) : ℚ) ≤ l - p by push_cast; exact h.1)
        rw [RoundOK.rnd.int _ (by norm_num)] at a
        push_cast at a
        exact ⟨a, RoundOK.rnd.le_one h.2⟩
      have h4 : |F32.rnd ((l : ℚ) - p)| * wFilterScale F32.rnd f inn out ≤ ((1 : ℤ) : ℚ) / 2 := by
        push_cast
        calc |F32.rnd ((l : ℚ) - p)| * wFilterScale F32.rnd f inn out ≤ 1 * (1 / 2) :=
              mul_le_mul h3 hfs hfs0 zero_le_one
          _ = 1 / 2 := one_mul _
      have := RoundOK.rnd.mono h4
      rw [RoundOK.rnd.half _ (by norm_num)] at this
      push_cast at this; exact this
    rintro l (rfl | rfl)
    · exact near l (by omega) (by rw [abs_le]; constructor <;> linarith)
    · exact near (k + 1) (by omega) (by push_cast; rw [abs_le]; constructor <;> linarith)

/-- Normalising signed weights: their sum is near one. -/
theorem signed_norm_sum {ws : List ℚ} (hrep : ∀ w ∈ ws, Rep w) (hl : ws.length ≤ 2 ^ 15) (h0 : 0 < sumF F32.rnd ws)
    (hT : (ws.map fun w => |w|).sum ≤ 2 ^ 16) (hTS : (ws.map fun w => |w|).sum ≤ 478 / 100 * sumF F32.rnd ws) :
    |(normRow F32.rnd (ws, sumF F32.rnd ws)).sum - 1| ≤ (5 * ws.length + 7) / 2 ^ 24 := by
  have u0 := u24_pos
  have eu : ∀ n : ℕ, (5 * (n : ℚ) + 7) / 2 ^ 24 = (5 * n + 7) * u24 := by intro n; unfold u24; ring
  rw [eu]
  unfold normRow
  simp only
  rw [if_pos (ne_of_gt h0)]
  have hE := foldl_sum_signed ws hrep 0 rep_zero'
  rw [zero_add, abs_zero, zero_add] at hE
  have hE' : |sumF F32.rnd ws - ws.sum| ≤ ((1 + u24) ^ ws.length - 1) * (ws.map fun w => |w|).sum := hE
  have hr0 : 0 ≤ F32.rnd (1 / sumF F32.rnd ws) := RoundOK.rnd.nonneg (by positivity)
  have hrle := recip_le h0
  have hrn := rnd_err_le (1 / sumF F32.rnd ws)
  rw [abs_of_pos (show 0 < 1 / sumF F32.rnd ws by positivity)] at hrn
  set r := F32.rnd (1 / sumF F32.rnd ws)
  set S' := sumF F32.rnd ws
  set T := (ws.map fun w => |w|).sum with hTd
  have hT0 : 0 ≤ T := List.sum_nonneg fun w h => by
    obtain ⟨v, _, rfl⟩ := List.mem_map.1 h; exact abs_nonneg v
  have hST : |ws.sum| ≤ T := by
    rw [hTd]
    generalize ws = l
    induction l with
    | nil => simp
    | cons a t ih =>
      simp only [List.sum_cons, List.map_cons]
      exact le_trans (abs_add_le _ _) (by linarith)
  have hgr := growth_le hl
  have hgn : (1 + u24) ^ ws.length - 1 ≤ ws.length * u24 * (257 / 256) := by
    have h1 := one_add_pow_le (n := ws.length) (by omega)
    have h2 : (0 : ℚ) ≤ ws.length * u24 := by positivity
    nlinarith
  have hg0 : 0 ≤ (1 + u24) ^ ws.length - 1 := by
    have := one_le_pow₀ (n := ws.length) (show 1 ≤ 1 + u24 by linarith)
    linarith
  have hS'le : S' ≤ 2 ^ 17 := by
    have : ((1 + u24) ^ ws.length - 1) * T ≤ 1 / 2 ^ 8 * 2 ^ 16 := mul_le_mul hgr hT hT0 (by norm_num)
    rw [abs_le] at hE' hST
    linarith [hE'.2, hST.2]
  -- the reciprocal
  have hrS : |r * S' - 1| ≤ u24 + u24 / 1000 := by
    have e : r * S' - 1 = (r - 1 / S') * S' := by field_simp
    rw [e, abs_mul, abs_of_pos h0]
    have : |r - 1 / S'| * S' ≤ (1 / S' / 2 ^ 24 + 1 / 2 ^ 150) * S' := mul_le_mul_of_nonneg_right hrn h0.le
    refine le_trans this ?_
    have e2 : (1 / S' / 2 ^ 24 + 1 / 2 ^ 150) * S' = u24 + S' * (1 / 2 ^ 150) := by unfold u24; field_simp
    rw [e2]
    have : S' * (1 / 2 ^ 150) ≤ u24 / 1000 :=
      le_trans (mul_le_mul_of_nonneg_right hS'le (by positivity)) (by unfold u24; norm_num)
    linarith
  have hTr : T * r ≤ 479 / 100 := by
    have a : T * r ≤ 478 / 100 * S' * r := mul_le_mul_of_nonneg_right hTS hr0
    rw [abs_le] at hrS
    have : u24 ≤ 1 / 100000 := by unfold u24; norm_num
    nlinarith [hrS.2]
  have hTr0 : 0 ≤ T * r := mul_nonneg hT0 hr0
  -- the rounding of the products
  have hprod : ∀ l : List ℚ, |((l.map fun w => F32.rnd (w * r)).sum : ℚ) - l.sum * r| ≤
      (l.map fun w => |w|).sum * r * u24 + l.length * (1 / 2 ^ 150) := by
    intro l
    induction l with
    | nil => simp
    | cons a t ih =>
      have b := rnd_err_le (a * r)
      rw [abs_mul a r, abs_of_nonneg hr0] at b
      have e : |a| * r / 2 ^ 24 = |a| * r * u24 := by unfold u24; ring
      rw [e] at b
      simp only [List.map_cons, List.sum_cons, List.length_cons]
      push_cast
      have := abs_add_le (F32.rnd (a * r) - a * r) ((t.map fun w => F32.rnd (w * r)).sum - t.sum * r)
      rw [show F32.rnd (a * r) - a * r + ((t.map fun w => F32.rnd (w * r)).sum - t.sum * r) =
        F32.rnd (a * r) + (t.map fun w => F32.rnd (w * r)).sum - (a + t.sum) * r by ring] at this
      linarith
  have p1 := hprod ws
  have p2 : (ws.length : ℚ) * (1 / 2 ^ 150) ≤ u24 / 1000 := by
    have : (ws.length : ℚ) ≤ 2 ^ 15 := by exact_mod_cast hl
    exact le_trans (mul_le_mul_of_nonneg_right this (by positivity)) (by unfold u24; norm_num)
  have p3 : T * r * u24 ≤ 479 / 100 * u24 := mul_le_mul_of_nonneg_right hTr u0.le
  have p4 : |ws.sum * r - S' * r| ≤ ws.length * u24 * (257 / 256) * (479 / 100) := by
    rw [← sub_mul, abs_mul, abs_of_nonneg hr0, abs_sub_comm]
    calc |S' - ws.sum| * r ≤ ((1 + u24) ^ ws.length - 1) * T * r := mul_le_mul_of_nonneg_right hE' hr0
      _ = ((1 + u24) ^ ws.length - 1) * (T * r) := by ring
      _ ≤ ws.length * u24 * (257 / 256) * (479 / 100) := mul_le_mul hgn hTr hTr0 (by positivity)
  have p5 : (ws.length : ℚ) * u24 * (257 / 256) * (479 / 100) ≤ 5 * ws.length * u24 := by
    have : (0 : ℚ) ≤ ws.length * u24 := by positivity
    nlinarith
  rw [mul_comm r S'] at hrS
  rw [abs_le] at p1 p4 hrS ⊢
  constructor <;> linarith [p1.1, p1.2, p4.1, p4.2, hrS.1, hrS.2]

/-- Normalised signed weights are bounded together. -/
theorem signed_norm_abs {ws : List ℚ} (hl : ws.length ≤ 2 ^ 15) (h0 : 0 < sumF F32.rnd ws)
    (hT : (ws.map fun w => |w|).sum ≤ 2 ^ 16) (hTS : (ws.map fun w => |w|).sum ≤ 478 / 100 * sumF F32.rnd ws) :
    ((normRow F32.rnd (ws, sumF F32.rnd ws)).map fun w => |w|).sum ≤ 5 := by
  have u0 := u24_pos
  unfold normRow
  simp only
  rw [if_pos (ne_of_gt h0)]
  have hr0 : 0 ≤ F32.rnd (1 / sumF F32.rnd ws) := RoundOK.rnd.nonneg (by positivity)
  have hrle := recip_le h0
  set r := F32.rnd (1 / sumF F32.rnd ws)
  set S' := sumF F32.rnd ws
  have hprod : ∀ l : List ℚ, ((l.map fun w => F32.rnd (w * r)).map fun w => |w|).sum ≤
      (l.map fun w => |w|).sum * r * (1 + u24) + l.length * (1 / 2 ^ 150) := by
    intro l
    induction l with
    | nil => simp
    | cons a t ih =>
      have b := rnd_err_le (a * r)
      have c := abs_add_le (F32.rnd (a * r) - a * r) (a * r)
      rw [sub_add_cancel] at c
      rw [abs_mul a r, abs_of_nonneg hr0] at b c
      have e : |a| * r / 2 ^ 24 = |a| * r * u24 := by unfold u24; ring
      rw [e] at b
      simp only [List.map_cons, List.sum_cons, List.length_cons]
      push_cast
      linarith
  have p1 := hprod ws
  set T := (ws.map fun w => |w|).sum with hTd
  have hT0 : 0 ≤ T := List.sum_nonneg fun w h => by
    obtain ⟨v, _, rfl⟩ := List.mem_map.1 h; exact abs_nonneg v
  have p2 : (ws.length : ℚ) * (1 / 2 ^ 150) ≤ 1 / 1000 := by
    have : (ws.length : ℚ) ≤ 2 ^ 15 := by exact_mod_cast hl
    exact le_trans (mul_le_mul_of_nonneg_right this (by positivity)) (by norm_num)
  have hTr : T * r ≤ 48 / 10 := by
    have a : T * r ≤ T * (1 / S' * (1 + u24) + 1 / 2 ^ 150) := mul_le_mul_of_nonneg_left hrle hT0
    have b : T * (1 / S') ≤ 478 / 100 := by rw [mul_one_div, div_le_iff₀ h0]; exact hTS
    have c : T * (1 / 2 ^ 150) ≤ 1 / 1000 :=
      le_trans (mul_le_mul_of_nonneg_right hT (by positivity)) (by norm_num)
    have d : T * (1 / S') * u24 ≤ 478 / 100 * u24 := mul_le_mul_of_nonneg_right b u0.le
    have e : 478 / 100 * u24 ≤ 1 / 1000 := by unfold u24; norm_num
    nlinarith
  have hu : T * r * u24 ≤ 48 / 10 * u24 := mul_le_mul_of_nonneg_right hTr u0.le
  have e : 48 / 10 * u24 ≤ 1 / 1000 := by unfold u24; norm_num
  linarith

/-- Quantising weights that are not near the largest 16-bit number. -/
theorem quantise_near {w : ℚ} (hr : Rep w) (hw : |w| ≤ 99 / 100) : |(quantise F32.rnd w : ℚ) - w * 32768| ≤ 1 / 2 := by
  have he := F32.round_err (w * 32768)
  rw [abs_le] at hw
  unfold quantise
  rw [hr.scale.rnd]
  have h1 : F32.round (w * 32768) ≤ 32767 := by
    have : (F32.round (w * 32768) : ℚ) ≤ ((32767 : ℤ) : ℚ) := by
      rw [abs_le] at he; push_cast; linarith [he.2]
    exact_mod_cast this
  have h2 : -32768 ≤ F32.round (w * 32768) := by
    have : ((-32768 : ℤ) : ℚ) ≤ (F32.round (w * 32768) : ℚ) := by
      rw [abs_le] at he; push_cast; linarith [he.1]
    exact_mod_cast this
  have e : max (min (F32.round (w * 32768)) 32767) (-32768) = F32.round (w * 32768) := by omega
  rw [e]
  exact he

theorem quantised_signed_near (l : List ℚ) (hl : ∀ w ∈ l, |w| ≤ 99 / 100 ∧ Rep w) :
    |(((l.map (quantise F32.rnd)).sum : ℤ) : ℚ) - l.sum * 32768| ≤ l.length / 2 := by
  induction l with
  | nil => simp
  | cons a t ih =>
    have i1 := ih fun w h => hl w (List.mem_cons_of_mem _ h)
    have i2 := quantise_near (hl a List.mem_cons_self).2 (hl a List.mem_cons_self).1
    simp only [List.map_cons, List.sum_cons, List.length_cons, Int.cast_add, Nat.cast_add, Nat.cast_one]
    rw [abs_le] at i1 i2 ⊢
    constructor <;> linarith [i1.1, i1.2, i2.1, i2.2]

/-- If an image is reduced to half its size or less, no weight of a window of a ringing filter is near one. -/
theorem ringing_no_clamp {f : Filter} (hf : Ringing f) (hres : f.isResizable = true) {inn out i : ℕ}
    (h2 : inn ≤ 2 ^ 15) (hr : 2 * out ≤ inn) (hi : i < out) (hsz : wEnd F32.rnd f inn out i ≤ inn)
    (hn : wEnd F32.rnd f inn out i - wStart F32.rnd f inn out i ≤ 1024) :
    ∀ v ∈ genRow F32.rnd f inn out i, |v| ≤ 99 / 100 ∧ Rep v := by
  have h1 : 1 ≤ inn := by omega
  have ho : 1 ≤ out := by omega
  obtain ⟨m1, m2, m3, m4⟩ := ringing_mass hf h1 h2 ho i hsz
  obtain ⟨β, hβ0, hgβ, hβs⟩ := lobes hf h1 h2 ho i hsz
  obtain ⟨k, w1, w2, w3⟩ := two_taps hf.support hres h2 hr hi
  have hE := foldl_sum_signed _ m3 0 rep_zero'
  rw [zero_add, abs_zero, zero_add] at hE
  have hE' : |sumF F32.rnd (rawRow F32.rnd f inn out i) - (rawRow F32.rnd f inn out i).sum| ≤
      ((1 + u24) ^ (rawRow F32.rnd f inn out i).length - 1) * ((rawRow F32.rnd f inn out i).map fun w => |w|).sum := hE
  have u0 := u24_pos
  have hgn : (1 + u24) ^ (rawRow F32.rnd f inn out i).length - 1 ≤ 1 / 10000 := by
    rw [rawRow_length]
    have hgr := growth_le (n := (genBound F32.rnd f inn out i).size) (show wEnd F32.rnd f inn out i - wStart F32.rnd f inn out i ≤ 2 ^ 15 by omega)
    have a1 := one_add_pow_le (n := (genBound F32.rnd f inn out i).size) (show wEnd F32.rnd f inn out i - wStart F32.rnd f inn out i ≤ 2 ^ 23 by omega)
    have a2 : ((genBound F32.rnd f inn out i).size : ℚ) ≤ 1024 := by exact_mod_cast hn
    have a3 : ((genBound F32.rnd f inn out i).size : ℚ) * u24 ≤ 1 / 16384 := by
      have := mul_le_mul_of_nonneg_right a2 u0.le
      have e : (1024 : ℚ) * u24 = 1 / 16384 := by unfold u24; norm_num
      linarith
    have a4 : (0 : ℚ) ≤ (genBound F32.rnd f inn out i).size * u24 := by positivity
    nlinarith
  set st := wStart F32.rnd f inn out i with hst
  set m := wEnd F32.rnd f inn out i - st with hmd
  set g : ℕ → ℚ := fun j => rawWeight F32.rnd f inn out i (st + j) with hg
  have hws : rawRow F32.rnd f inn out i = (List.range m).map g := rfl
  have hsum : (rawRow F32.rnd f inn out i).sum = ∑ j ∈ range m, g j := by
    rw [hws]
    generalize m = n
    induction n with
    | zero => simp
    | succ n ih => rw [List.range_succ, List.map_append, List.sum_append, ih, sum_range_succ]; simp
  have near : ∀ l, l = k ∨ l = k + 1 → 9 / 20 ≤ rawWeight F32.rnd f inn out i l := by
    intro l hl
    have := w3 l hl
    unfold rawWeight
    rw [hf.window]
    exact hf.centre _ (RoundOK.rnd.nonneg (mul_nonneg (abs_nonneg _) (RoundOK.rnd.nonneg (by
      have := wCutoff_one_le (ρ := F32.rnd) f inn out
      positivity)))) this
  -- every tap leaves some weight for the others
  have hlo : ∀ j ∈ range m, g j + 19 / 120 ≤ ∑ j ∈ range m, g j := by
    intro j hj
    obtain ⟨j', hj', hne, hg'⟩ : ∃ j' ∈ range m, j' ≠ j ∧ 9 / 20 ≤ g j' := by
      by_cases e : j = k - st
      · refine ⟨k + 1 - st, mem_range.2 (by omega), by omega, ?_⟩
        simp only [hg]
        rw [show st + (k + 1 - st) = k + 1 by omega]
        exact near _ (Or.inr rfl)
      · refine ⟨k - st, mem_range.2 (by omega), fun h => e h.symm, ?_⟩
        simp only [hg]
        rw [show st + (k - st) = k by omega]
        exact near _ (Or.inl rfl)
    have h3 := add_le_sum (f := fun j => g j + β j) hgβ hj hj' hne.symm
    simp only [sum_add_distrib] at h3
    have := hβ0 j
    have := hβ0 j'
    linarith
  have hTS : ((rawRow F32.rnd f inn out i).map fun w => |w|).sum ≤ (rawRow F32.rnd f inn out i).sum + 7 / 12 := by
    have e : ((rawRow F32.rnd f inn out i).map fun w => |w|).sum = ∑ j ∈ range m, |g j| := by
      rw [hws, List.map_map]
      generalize m = n
      induction n with
      | zero => simp
      | succ n ih => rw [List.range_succ, List.map_append, List.sum_append, ih, sum_range_succ]; simp
    rw [e, hsum]
    have : ∑ j ∈ range m, |g j| ≤ ∑ j ∈ range m, (g j + 2 * β j) := by
      refine sum_le_sum fun j hj => ?_
      have := hgβ j hj
      have := hβ0 j
      rw [abs_le]; constructor <;> linarith
    rw [sum_add_distrib, ← Finset.mul_sum] at this
    linarith
  have hSpos : 19 / 120 + 9 / 20 ≤ ∑ j ∈ range m, g j := by
    have := hlo (k - st) (mem_range.2 (by omega))
    have h3 := near k (Or.inl rfl)
    simp only [hg] at this
    rw [show st + (k - st) = k by omega] at this
    linarith
  rw [hsum] at hE' hTS
  obtain ⟨S, hS⟩ : ∃ S, S = ∑ j ∈ range m, g j := ⟨_, rfl⟩
  rw [← hS] at hE' hTS hSpos hlo
  have hraw : ∀ w ∈ rawRow F32.rnd f inn out i, w + 19 / 120 ≤ S ∧ -(1 / 12) ≤ w ∧ w ≤ 2 := by
    intro w hw
    obtain ⟨x, x0, e⟩ := rawRow_mem hf.window RoundOK.rnd inn out i w hw
    refine ⟨?_, by rw [e]; exact hf.outer x x0, by rw [e]; exact hf.le_two x x0⟩
    rw [hws] at hw
    obtain ⟨j, hj, rfl⟩ := List.mem_map.1 hw
    exact hlo j (mem_range.2 (List.mem_range.1 hj))
  set S' := sumF F32.rnd (rawRow F32.rnd f inn out i) with hS'
  set T := ((rawRow F32.rnd f inn out i).map fun w => |w|).sum with hTd
  have hT0 : 0 ≤ T := List.sum_nonneg fun w h => by
    obtain ⟨v, _, rfl⟩ := List.mem_map.1 h; exact abs_nonneg v
  have hS'lo : S - 1 / 10000 * (S + 7 / 12) ≤ S' := by
    have : ((1 + u24) ^ (rawRow F32.rnd f inn out i).length - 1) * T ≤ 1 / 10000 * (S + 7 / 12) :=
      mul_le_mul hgn hTS hT0 (by norm_num)
    rw [abs_le] at hE'
    linarith [hE'.1]
  intro v hv
  unfold genRow at hv
  rw [show preRow F32.rnd f (rawRow F32.rnd f inn out i) = (rawRow F32.rnd f inn out i, S')
    by unfold preRow; rw [hf.ewa]] at hv
  unfold normRow at hv
  simp only at hv
  rw [if_pos (ne_of_gt m1)] at hv
  obtain ⟨w, hw, rfl⟩ := List.mem_map.1 hv
  refine ⟨?_, rep_rnd _⟩
  obtain ⟨r1, r2, r3⟩ := hraw w hw
  have hr0 : 0 ≤ F32.rnd (1 / S') := RoundOK.rnd.nonneg (by positivity)
  have hrle := recip_le m1
  have habs : |w| ≤ 95 / 100 * S' := by
    rw [abs_le]; constructor <;> linarith
  have hwr : |w * F32.rnd (1 / S')| ≤ 96 / 100 := by
    rw [abs_mul, abs_of_nonneg hr0]
    have a : |w| * F32.rnd (1 / S') ≤ |w| * (1 / S' * (1 + u24) + 1 / 2 ^ 150) := mul_le_mul_of_nonneg_left hrle (abs_nonneg _)
    have b : |w| * (1 / S') ≤ 95 / 100 := by rw [mul_one_div, div_le_iff₀ m1]; exact habs
    have b2 : |w| ≤ 2 := by rw [abs_le]; constructor <;> linarith
    have c : |w| * (1 / 2 ^ 150) ≤ 1 / 1000 := le_trans (mul_le_mul_of_nonneg_right b2 (by positivity)) (by norm_num)
    have d : u24 ≤ 1 / 1000 := by unfold u24; norm_num
    have e : |w| * (1 / S') * u24 ≤ 95 / 100 * (1 / 1000) := mul_le_mul b d u0.le (by norm_num)
    nlinarith
  have q1 := rnd_within hwr
  have q2 : (96 / 100 : ℚ) / 2 ^ 24 + 1 / 2 ^ 150 ≤ 1 / 100 := by norm_num
  have q3 := abs_add_le (F32.rnd (w * F32.rnd (1 / S')) - w * F32.rnd (1 / S')) (w * F32.rnd (1 / S'))
  rw [sub_add_cancel] at q3
  linarith

end PicScale
