import Verif.Props.Geometry

/-!
Kernels that do not grow with the distance: of two taps of a window the nearer one weighs no less, also after
rounding, normalisation and quantisation. And one-hot rows: the spline kernels at whole distances.
-/

namespace PicScale

open Finset F32 Spec

/-- A kernel that is not negative and does not grow with the distance. -/
def FadingKernel (k : ℚ → ℚ) : Prop := (∀ x, 0 ≤ x → 0 ≤ k x) ∧ ∀ x y, 0 ≤ x → x ≤ y → k y ≤ k x

theorem fading_bilinear : FadingKernel (Kernel.bilinear rnd) := by
  refine ⟨fun x _ => bilinear_nonneg RoundOK.rnd x, fun x y hx hxy => ?_⟩
  unfold Kernel.bilinear
  simp only
  rw [abs_of_nonneg hx, abs_of_nonneg (by linarith : 0 ≤ y)]
  split_ifs with a b
  · exact RoundOK.rnd.mono (by linarith)
  · exact absurd (lt_of_le_of_lt hxy a) b
  · exact RoundOK.rnd.nonneg (by linarith)
  · exact le_refl _

theorem fading_box : FadingKernel Kernel.boxWeight := ⟨fun _ _ => zero_le_one, fun _ _ _ _ => le_refl _⟩

theorem fading_welch : FadingKernel (Kernel.welch rnd) := by
  refine ⟨fun x hx => welch_nonneg RoundOK.rnd x hx, fun x y hx hxy => ?_⟩
  have h1 : ∀ z : ℚ, rnd (1 - rnd (z * z)) ≤ 1 := by
    intro z
    exact RoundOK.rnd.le_one (by have := RoundOK.rnd.nonneg (mul_self_nonneg z); linarith)
  by_cases hx0 : x = 0
  · subst hx0
    have : Kernel.welch rnd 0 = 1 := by unfold Kernel.welch; rw [if_pos rfl]
    rw [this]
    unfold Kernel.welch
    split_ifs
    · exact le_refl _
    · norm_num
    · exact h1 y
  · have hy0 : y ≠ 0 := by
      intro h; subst h; exact hx0 (le_antisymm hxy hx)
    unfold Kernel.welch
    rw [if_neg hx0, if_neg hy0]
    split_ifs with a b
    · exact le_refl _
    · refine RoundOK.rnd.nonneg ?_
      have := RoundOK.rnd.le_one (show x * x ≤ 1 by nlinarith)
      linarith
    · linarith
    · refine RoundOK.rnd.mono ?_
      have := RoundOK.rnd.mono (show x * x ≤ y * y by nlinarith)
      linarith

theorem fading_quadric : FadingKernel (Kernel.quadric rnd) := by
  refine ⟨fun x _ => quadric_nonneg RoundOK.rnd x, fun x y hx hxy => ?_⟩
  have hy : 0 ≤ y := by linarith
  have half : rnd (1 / 2) = 1 / 2 := by
    have := RoundOK.rnd.half 1 (by norm_num)
    push_cast at this; exact this
  have quarter : rnd (1 / 4) = 1 / 4 := by
    have := rnd_dy (n := 2) (by norm_num) 1 (by norm_num)
    push_cast at this
    norm_num at this ⊢; exact this
  have tail : ∀ z : ℚ, 1 / 2 ≤ z → z < 3 / 2 →
      -1 ≤ rnd (z - 3 / 2) ∧ rnd (z - 3 / 2) ≤ 0 := by
    intro z h1 h2
    refine ⟨?_, RoundOK.rnd.nonpos (by linarith)⟩
    have := RoundOK.rnd.mono (show ((-2 : ℤ) : ℚ) / 2 ≤ z - 3 / 2 by push_cast; linarith)
    rw [RoundOK.rnd.half _ (by norm_num)] at this
    push_cast at this; linarith
  unfold Kernel.quadric
  simp only
  rw [abs_of_nonneg hx, abs_of_nonneg hy]
  by_cases hx1 : x < 1 / 2
  · rw [if_pos hx1]
    have sx : rnd (x * x) ≤ 1 / 4 := by
      have := RoundOK.rnd.mono (show x * x ≤ 1 / 4 by nlinarith)
      rwa [quarter] at this
    have lo : 1 / 2 ≤ rnd (3 / 4 - rnd (x * x)) := by
      have := RoundOK.rnd.mono (show 1 / 2 ≤ 3 / 4 - rnd (x * x) by linarith)
      rwa [half] at this
    split_ifs with a b
    · refine RoundOK.rnd.mono ?_
      have := RoundOK.rnd.mono (show x * x ≤ y * y by nlinarith)
      linarith
    · obtain ⟨t1, t2⟩ := tail y (by linarith) b
      refine le_trans ?_ lo
      have u1 : -(1 / 2) ≤ rnd (1 / 2 * rnd (y - 3 / 2)) := by
        have := RoundOK.rnd.mono (show ((-1 : ℤ) : ℚ) / 2 ≤ 1 / 2 * rnd (y - 3 / 2) by push_cast; linarith)
        rw [RoundOK.rnd.half _ (by norm_num)] at this
        push_cast at this; linarith
      have u2 : rnd (1 / 2 * rnd (y - 3 / 2)) ≤ 0 := RoundOK.rnd.nonpos (by linarith)
      have := RoundOK.rnd.mono (show rnd (1 / 2 * rnd (y - 3 / 2)) * rnd (y - 3 / 2) ≤ 1 / 2 by nlinarith)
      rwa [half] at this
    · linarith
  · rw [if_neg hx1, if_neg (by linarith : ¬ (y < 1 / 2))]
    by_cases hy2 : y < 3 / 2
    · rw [if_pos hy2, if_pos (by linarith : x < 3 / 2)]
      obtain ⟨a1, a2⟩ := tail x (by linarith) (by linarith)
      have m1 := RoundOK.rnd.mono (show x - 3 / 2 ≤ y - 3 / 2 by linarith)
      obtain ⟨b1, b2⟩ := tail y (by linarith) hy2
      have m2 := RoundOK.rnd.mono (show 1 / 2 * rnd (x - 3 / 2) ≤ 1 / 2 * rnd (y - 3 / 2) by linarith)
      have n2 : rnd (1 / 2 * rnd (y - 3 / 2)) ≤ 0 := RoundOK.rnd.nonpos (by linarith)
      refine RoundOK.rnd.mono ?_
      nlinarith
    · rw [if_neg hy2]
      split_ifs with b
      · obtain ⟨a1, a2⟩ := tail x (by linarith) b
        have n2 : rnd (1 / 2 * rnd (x - 3 / 2)) ≤ 0 := RoundOK.rnd.nonpos (by linarith)
        exact RoundOK.rnd.nonneg (by nlinarith)
      · exact le_refl _

/-- The filters whose weights fade with the distance, whatever the mathematical library. -/
def fading : List ResamplingFunction := [.bilinear, .quadric, .welch, .box, .area]

/-- The filters whose weights fade with the distance. -/
def Fades (L : Lib) (r : ResamplingFunction) : Prop := r ∈ fading ∨ r = .kaiser ∧ LibmBounds L

theorem fading_filter (L : Lib) {r : ResamplingFunction} (hr : Fades L r) :
    FadingKernel (filterOf rnd L r).kernel ∧ (filterOf rnd L r).window = none ∧ (filterOf rnd L r).isEwa = false := by
  rcases hr with hr | ⟨rfl, hL⟩
  swap
  · refine ⟨⟨fun x h0 => ((LibmBounds_kernel hL (by decide)).2 x h0).1, fun x y h0 hxy => ?_⟩, rfl, rfl⟩
    obtain ⟨_, e⟩ := hL.kaiser x h0
    obtain ⟨_, e'⟩ := hL.kaiser y (le_trans h0 hxy)
    exact kaiserWindow_mono hL.root h0 hxy e e'
  simp only [fading, List.mem_cons, List.not_mem_nil, or_false] at hr
  rcases hr with rfl | rfl | rfl | rfl | rfl
  · exact ⟨fading_bilinear, rfl, rfl⟩
  · exact ⟨fading_quadric, rfl, rfl⟩
  · exact ⟨fading_welch, rfl, rfl⟩
  · exact ⟨fading_box, rfl, rfl⟩
  · exact ⟨fading_box, rfl, rfl⟩

theorem fading_averaging {L : Lib} {r : ResamplingFunction} (hr : Fades L r) : Averages L r := by
  rcases hr with hr | ⟨rfl, hL⟩
  swap
  · exact Or.inr ⟨by decide, hL⟩
  refine Or.inl ?_
  simp only [fading, averaging, List.mem_cons, List.not_mem_nil, or_false] at hr ⊢
  tauto

theorem rawRow_getD {f : Filter} {inn out i j : ℕ} (hj : j < (genBound rnd f inn out i).size) :
    (rawRow rnd f inn out i).getD j 0 = rawWeight rnd f inn out i ((genBound rnd f inn out i).start + j) := by
  have hj' : j < wEnd rnd f inn out i - wStart rnd f inn out i := hj
  unfold rawRow
  rw [List.getD_eq_getElem?_getD, List.getElem?_map, List.getElem?_range hj']
  rfl

/-- Normalising keeps the order of the taps. -/
theorem normRow_order {ws : List ℚ} (hw : ∀ w ∈ ws, 0 ≤ w) {a b : ℕ} (ha : a < ws.length) (hb : b < ws.length)
    (hab : ws.getD b 0 ≤ ws.getD a 0) :
    (normRow rnd (ws, sumF rnd ws)).getD b 0 ≤ (normRow rnd (ws, sumF rnd ws)).getD a 0 := by
  have hs := sumF_nonneg RoundOK.rnd ws hw
  unfold normRow
  simp only
  simp only [List.getD_eq_getElem?_getD] at *
  split_ifs with h
  · rw [List.getElem?_map, List.getElem?_map]
    rw [List.getElem?_eq_getElem ha, List.getElem?_eq_getElem hb] at *
    simp only [Option.map_some, Option.getD_some] at *
    refine RoundOK.rnd.mono (mul_le_mul_of_nonneg_right hab (RoundOK.rnd.nonneg (by positivity)))
  · rw [List.getElem?_replicate, List.getElem?_replicate, if_pos ha, if_pos hb]

theorem genRow_order (L : Lib) {r : ResamplingFunction} (hr : Fades L r) {inn out P t i k l : ℕ}
    (h : DyadicRatio inn out P t) (hi : i < out) (hin : ∀ j, j < (genBound rnd (filterOf rnd L r) inn out i).size →
      (genBound rnd (filterOf rnd L r) inn out i).start + j < inn)
    (hk : k < (genBound rnd (filterOf rnd L r) inn out i).size) (hl : l < (genBound rnd (filterOf rnd L r) inn out i).size)
    (hd : |(((genBound rnd (filterOf rnd L r) inn out i).start + k : ℕ) + 1 / 2 : ℚ) - centre inn out i| ≤
      |(((genBound rnd (filterOf rnd L r) inn out i).start + l : ℕ) + 1 / 2 : ℚ) - centre inn out i|) :
    (genRow rnd (filterOf rnd L r) inn out i).getD l 0 ≤ (genRow rnd (filterOf rnd L r) inn out i).getD k 0 := by
  obtain ⟨⟨f0, fm⟩, fw, fe⟩ := fading_filter L hr
  rw [genRow_of fe rfl]
  have fs0 : 0 ≤ wFilterScale rnd (filterOf rnd L r) inn out := by
    unfold wFilterScale
    have := wCutoff_one_le (ρ := rnd) (filterOf rnd L r) inn out
    exact RoundOK.rnd.nonneg (by positivity)
  have raw : ∀ s, rawWeight rnd (filterOf rnd L r) inn out i s = (filterOf rnd L r).kernel
      (rnd (|rnd (rnd s - rnd (wCenter rnd inn out i - 1 / 2))| * wFilterScale rnd (filterOf rnd L r) inn out)) := by
    intro s; unfold rawWeight; simp only [fw]
  have len : (rawRow rnd (filterOf rnd L r) inn out i).length = (genBound rnd (filterOf rnd L r) inn out i).size := by
    simp [rawRow, genBound]
  refine normRow_order (fun w hw => ?_) (by rw [len]; exact hk) (by rw [len]; exact hl) ?_
  · unfold rawRow at hw
    obtain ⟨j, _, rfl⟩ := List.mem_map.1 hw
    rw [raw]
    exact f0 _ (RoundOK.rnd.nonneg (mul_nonneg (abs_nonneg _) fs0))
  · rw [rawRow_getD hk, rawRow_getD hl, raw, raw, h.dist_eq hi (hin k hk), h.dist_eq hi (hin l hl), h.wCenter_centre hi]
    refine fm _ _ (RoundOK.rnd.nonneg (mul_nonneg (abs_nonneg _) fs0)) (RoundOK.rnd.mono ?_)
    exact mul_le_mul_of_nonneg_right hd fs0

end PicScale
