import Verif.Model.Kaiser
import Verif.SpecAverages
import Verif.Lemmas.WeightSums
import Verif.Lemmas.Weights

/-!
The Bessel series of the Kaiser window in rounded arithmetic: monotone in its argument, so it ends at the latest where it
ends for the largest argument.
-/

namespace PicScale

open F32 Spec

theorem besselLoop_fuel {ρ : ℚ → ℚ} {y : ℚ} : ∀ {n m : ℕ} {s t i r : ℚ}, n ≤ m → besselLoop ρ y n s t i = some r →
    besselLoop ρ y m s t i = some r
  | 0, _, _, _, _, _, _, h => by simp [besselLoop] at h
  | n + 1, 0, _, _, _, _, hm, _ => by omega
  | n + 1, m + 1, s, t, i, r, hm, h => by
    unfold besselLoop at h ⊢
    split_ifs at h ⊢
    · exact besselLoop_fuel (by omega) h
    · exact h

/-- A smaller argument and smaller terms end no later, with a smaller sum that is at least the start. -/
theorem besselLoop_mono {ρ : ℚ → ℚ} (hρ : RoundOK ρ) (hi : ∀ x, ρ (ρ x) = ρ x) {y y' : ℚ} (hy : 0 ≤ y) (hyy : y ≤ y') :
    ∀ {n : ℕ} {s s' t t' i r' : ℚ}, (ρ s = s) → 0 ≤ t → s ≤ s' → t ≤ t' → besselLoop ρ y' n s' t' i = some r' →
      ∃ r, besselLoop ρ y n s t i = some r ∧ s ≤ r ∧ r ≤ r'
  | 0, _, _, _, _, _, _, _, _, _, _, h => by simp [besselLoop] at h
  | n + 1, s, s', t, t', i, r', hs, ht, hss, htt, h => by
    unfold besselLoop at h ⊢
    have q0 : 0 ≤ ρ (y / ρ (i * i)) := hρ.nonneg (div_nonneg hy (hρ.nonneg (mul_self_nonneg i)))
    have qq : ρ (y / ρ (i * i)) ≤ ρ (y' / ρ (i * i)) :=
      hρ.mono (div_le_div_of_nonneg_right hyy (hρ.nonneg (mul_self_nonneg i)))
    have t0 : 0 ≤ ρ (t * ρ (y / ρ (i * i))) := hρ.nonneg (mul_nonneg ht q0)
    have hs1 : s ≤ ρ (s + t) := by
      calc s = ρ s := hs.symm
        _ ≤ ρ (s + t) := hρ.mono (by linarith)
    by_cases c : ρ (1 / 10 ^ 12) < t
    · rw [if_pos c]
      rw [if_pos (lt_of_lt_of_le c htt)] at h
      obtain ⟨r, e, a, b⟩ := besselLoop_mono hρ hi hy hyy (hi _) t0 (hρ.mono (add_le_add hss htt))
        (hρ.mono (mul_le_mul htt qq q0 (le_trans ht htt))) h
      exact ⟨r, e, le_trans hs1 a, b⟩
    · rw [if_neg c]
      refine ⟨s, rfl, le_refl _, ?_⟩
      split_ifs at h with c'
      · obtain ⟨r, e, a, b⟩ := besselLoop_mono (ρ := ρ) hρ hi (le_trans hy hyy) (le_refl y') (hi _)
          (hρ.nonneg (mul_nonneg (le_trans ht htt) (le_trans q0 qq))) (le_refl _) (le_refl _) h
        rw [h] at e
        obtain rfl := Option.some.inj e
        refine le_trans ?_ a
        calc s = ρ s := hs.symm
          _ ≤ ρ (s' + t') := hρ.mono (by linarith)
      · obtain rfl := Option.some.inj h
        exact hss

theorem besselI0_fuel {ρ : ℚ → ℚ} {n m : ℕ} {x r : ℚ} (hm : n ≤ m) (h : besselI0 ρ n x = some r) :
    besselI0 ρ m x = some r := besselLoop_fuel hm h

theorem besselI0_mono {ρ : ℚ → ℚ} (hρ : RoundOK ρ) (hi : ∀ x, ρ (ρ x) = ρ x) {n : ℕ} {x x' r' : ℚ} (hx : 0 ≤ x)
    (hxx : x ≤ x') (h : besselI0 ρ n x' = some r') : ∃ r, besselI0 ρ n x = some r ∧ 1 ≤ r ∧ r ≤ r' := by
  have sq : ρ (ρ (x * x) / 4) ≤ ρ (ρ (x' * x') / 4) := by
    refine hρ.mono (div_le_div_of_nonneg_right (hρ.mono (mul_le_mul hxx hxx hx (le_trans hx hxx))) (by norm_num))
  have s0 : 0 ≤ ρ (ρ (x * x) / 4) := hρ.nonneg (div_nonneg (hρ.nonneg (mul_self_nonneg x)) (by norm_num))
  exact besselLoop_mono hρ hi s0 sq hρ.one s0 (le_refl _) sq h

/-- The largest value of the series: `bessel_i0(6.33)`. -/
theorem bessel_top : ∃ b, besselI0 rnd 24 (rnd (633 / 100)) = some b ∧ 1 ≤ b ∧ rnd (b * rnd (1 / b)) ≤ 1 ∧
    1 / 92 ≤ rnd (1 * rnd (1 / b)) := by
  have h : (besselI0 rnd 24 (rnd (633 / 100))).map
      (fun b => decide (1 ≤ b ∧ rnd (b * rnd (1 / b)) ≤ 1 ∧ 1 / 92 ≤ rnd (1 * rnd (1 / b)))) = some true := by
    decide +kernel
  obtain ⟨b, e, h⟩ := Option.map_eq_some_iff.1 h
  exact ⟨b, e, of_decide_eq_true h⟩

/-- The window at a distance of at most one, with the value of the series. -/
theorem kaiserWindow_inside {sqrt : ℚ → ℚ} (h : SqrtLike sqrt) {b : ℚ} {n : ℕ}
    (hb : besselI0 rnd n (rnd (633 / 100)) = some b) {x : ℚ} (h0 : 0 ≤ x) (h1 : x ≤ 1) :
    ∃ v, besselI0 rnd n (rnd (rnd (633 / 100) * sqrt (rnd (1 - rnd (x * x))))) = some v ∧ 1 ≤ v ∧ v ≤ b ∧
      kaiserWindow rnd sqrt n x = some (rnd (v * rnd (1 / b))) := by
  have hd := RoundOK.rnd
  have q0 : 0 ≤ rnd (x * x) := hd.nonneg (mul_self_nonneg x)
  have q1 : rnd (x * x) ≤ 1 := hd.le_one (by nlinarith)
  have r0 : 0 ≤ rnd (1 - rnd (x * x)) := hd.nonneg (by linarith)
  have r1 : rnd (1 - rnd (x * x)) ≤ 1 := hd.le_one (by linarith)
  obtain ⟨s0, s1⟩ := h.range _ r0 r1
  have c0 : 0 ≤ rnd (633 / 100) := hd.nonneg (by norm_num)
  have le : rnd (rnd (633 / 100) * sqrt (rnd (1 - rnd (x * x)))) ≤ rnd (633 / 100) := by
    conv_rhs => rw [← (rep_rnd (633 / 100)).rnd]
    exact hd.mono (by nlinarith)
  obtain ⟨v, e, a, c⟩ := besselI0_mono hd (fun x => (rep_rnd x).rnd) (hd.nonneg (mul_nonneg c0 s0)) le hb
  refine ⟨v, e, a, c, ?_⟩
  unfold kaiserWindow
  rw [if_neg (not_lt.2 h1), hb]
  show (besselI0 rnd n (rnd (rnd (633 / 100) * sqrt (rnd (1 - rnd (x * x))))) >>= _) = _
  rw [e]
  rfl

/-- More fuel does not change a result. -/
theorem kaiserWindow_fuel {sqrt : ℚ → ℚ} {n m : ℕ} {x w : ℚ} (hm : n ≤ m) (h : kaiserWindow rnd sqrt n x = some w) :
    kaiserWindow rnd sqrt m x = some w := by
  unfold kaiserWindow at h ⊢
  split_ifs at h ⊢
  · exact h
  · obtain ⟨b, e1, h⟩ := Option.bind_eq_some_iff.1 h
    obtain ⟨v, e2, h⟩ := Option.bind_eq_some_iff.1 h
    rw [besselI0_fuel hm e1]
    show (besselI0 rnd m _ >>= _) = _
    rw [besselI0_fuel hm e2]
    exact h

theorem kaiserWindow_unique {sqrt : ℚ → ℚ} {n m : ℕ} {x w w' : ℚ} (h : kaiserWindow rnd sqrt n x = some w)
    (h' : kaiserWindow rnd sqrt m x = some w') : w = w' := by
  have a := kaiserWindow_fuel (le_max_left n m) h
  have b := kaiserWindow_fuel (le_max_right n m) h'
  rw [a] at b
  exact Option.some.inj b

theorem kaiserWindow_outside {sqrt : ℚ → ℚ} {n : ℕ} {x : ℚ} (h : 1 < x) : kaiserWindow rnd sqrt n x = some 0 := by
  unfold kaiserWindow; rw [if_pos h]

/-- The window does not grow with the distance. -/
theorem kaiserWindow_mono {sqrt : ℚ → ℚ} (h : SqrtLike sqrt) {x x' : ℚ} {n m : ℕ} {w w' : ℚ} (h0 : 0 ≤ x) (hx : x ≤ x')
    (e : kaiserWindow rnd sqrt n x = some w) (e' : kaiserWindow rnd sqrt m x' = some w') : w' ≤ w := by
  have hd := RoundOK.rnd
  obtain ⟨b, hb, b1, b2, b3⟩ := bessel_top
  have i0 : 0 ≤ rnd (1 / b) := hd.nonneg (by positivity)
  by_cases c : 1 < x'
  · rw [kaiserWindow_outside c] at e'
    obtain rfl := Option.some.inj e'
    by_cases c' : 1 < x
    · rw [kaiserWindow_outside c'] at e
      rw [← Option.some.inj e]
    · obtain ⟨v, _, v1, _, ev⟩ := kaiserWindow_inside h hb h0 (not_lt.1 c')
      rw [kaiserWindow_unique e ev]
      exact hd.nonneg (mul_nonneg (by linarith) i0)
  · have x1 := not_lt.1 c
    obtain ⟨v, ev1, v1, _, ev⟩ := kaiserWindow_inside h hb h0 (le_trans hx x1)
    obtain ⟨v', ev1', v1', _, ev'⟩ := kaiserWindow_inside h hb (le_trans h0 hx) x1
    rw [kaiserWindow_unique e ev, kaiserWindow_unique e' ev']
    refine hd.mono (mul_le_mul_of_nonneg_right ?_ i0)
    have c0 : 0 ≤ rnd (633 / 100) := hd.nonneg (by norm_num)
    have sq : rnd (x * x) ≤ rnd (x' * x') := hd.mono (mul_le_mul hx hx h0 (le_trans h0 hx))
    have q1 : rnd (x' * x') ≤ 1 := hd.le_one (by nlinarith)
    have r0 : 0 ≤ rnd (1 - rnd (x' * x')) := hd.nonneg (by linarith)
    have rr : rnd (1 - rnd (x' * x')) ≤ rnd (1 - rnd (x * x)) := hd.mono (by linarith)
    have r1 : rnd (1 - rnd (x * x)) ≤ 1 := hd.le_one (by have := hd.nonneg (mul_self_nonneg x); linarith)
    have s0 := (h.range _ r0 (le_trans rr r1)).1
    obtain ⟨r, er, _, hr⟩ := besselI0_mono hd (fun x => (rep_rnd x).rnd) (hd.nonneg (mul_nonneg c0 s0))
      (hd.mono (mul_le_mul_of_nonneg_left (h.mono _ _ r0 rr r1) c0)) ev1
    rw [er] at ev1'
    rw [← Option.some.inj ev1']
    exact hr

/-- Kernels of averaging filters: no window, values that are not negative and exact in binary32. -/
theorem LibmBounds_kernel {L : Lib} (h : LibmBounds L) {r : ResamplingFunction} (hr : r ∈ averagingLibm) :
    (filterOf rnd L r).window = none ∧
      ∀ x, 0 ≤ x → 0 ≤ (filterOf rnd L r).kernel x ∧ Rep ((filterOf rnd L r).kernel x) := by
  have hd := RoundOK.rnd
  have one : Rep 1 := ⟨1, 0, by simp, by norm_num, by omega⟩
  have zero : Rep 0 := ⟨0, 0, by simp, by norm_num, by omega⟩
  simp only [averagingLibm, List.mem_cons, List.not_mem_nil, or_false] at hr
  rcases hr with rfl | rfl | rfl | rfl
  · refine ⟨rfl, fun x _ => ?_⟩
    show 0 ≤ Kernel.hamming rnd L x ∧ Rep (Kernel.hamming rnd L x)
    unfold Kernel.hamming
    simp only
    split_ifs
    · exact ⟨zero_le_one, one⟩
    · exact ⟨le_refl _, zero⟩
    · refine ⟨hd.nonneg ?_, rep_rnd _⟩
      obtain ⟨c0, _⟩ := h.cos (rnd (|x| * L.pi))
      have a : 0 ≤ rnd (46 / 100) := hd.nonneg (by norm_num)
      have e : rnd (-(54 / 100)) = -rnd (54 / 100) := rnd_neg _
      have m : rnd (46 / 100) ≤ 54 / 100 := by
        have : rnd (46 / 100) ≤ 1 / 2 := by
          have := hd.mono (show (46 / 100 : ℚ) ≤ ((1 : ℤ) : ℚ) / 2 by norm_num)
          rwa [hd.half 1 (by norm_num)] at this
        linarith
      have : rnd (-(54 / 100)) ≤ rnd (rnd (46 / 100) * L.cos (rnd (|x| * L.pi))) := hd.mono (by nlinarith)
      rw [e] at this
      linarith
  · refine ⟨rfl, fun x _ => ?_⟩
    show 0 ≤ Kernel.hanning rnd L x ∧ Rep (Kernel.hanning rnd L x)
    unfold Kernel.hanning
    simp only
    split_ifs
    · exact ⟨zero_le_one, one⟩
    · exact ⟨le_refl _, zero⟩
    · refine ⟨hd.nonneg ?_, rep_rnd _⟩
      obtain ⟨c0, _⟩ := h.cos (rnd (|x| * L.pi))
      have := hd.mono (show ((-1 : ℤ) : ℚ) / 2 ≤ 1 / 2 * L.cos (rnd (|x| * L.pi)) by push_cast; linarith)
      rw [hd.half (-1) (by norm_num)] at this
      push_cast at this
      linarith
  · refine ⟨rfl, fun x _ => ?_⟩
    show 0 ≤ Kernel.gaussian rnd L x ∧ Rep (Kernel.gaussian rnd L x)
    unfold Kernel.gaussian
    simp only
    refine ⟨hd.nonneg (mul_nonneg (hd.nonneg ?_) (h.exp _)), rep_rnd _⟩
    exact div_nonneg zero_le_one (hd.nonneg (mul_nonneg (h.sqrt _) (hd.nonneg (by norm_num))))
  · refine ⟨rfl, fun x h0 => ?_⟩
    show 0 ≤ L.kaiser x ∧ Rep (L.kaiser x)
    obtain ⟨n, e⟩ := h.kaiser x h0
    by_cases c : 1 < x
    · rw [kaiserWindow_outside c] at e
      rw [← Option.some.inj e]
      exact ⟨le_refl _, zero⟩
    · obtain ⟨b, hb, b1, _⟩ := bessel_top
      obtain ⟨v, _, v1, _, ev⟩ := kaiserWindow_inside h.root hb h0 (not_lt.1 c)
      rw [kaiserWindow_unique e ev]
      exact ⟨hd.nonneg (mul_nonneg (by linarith) (hd.nonneg (by positivity))), rep_rnd _⟩

end PicScale
