import Mathlib.Algebra.BigOperators.Group.List.Basic
import Mathlib.Algebra.BigOperators.Intervals
import Mathlib.Algebra.Order.BigOperators.Group.List
import Verif.Lemmas.Weights
import Verif.Model.Kernels

/-! Sums and signs of the rows of a weight table. -/

namespace PicScale

variable {ρ : ℚ → ℚ}

theorem filterOf_ok (L : Lib) (r : ResamplingFunction) : (filterOf ρ L r).OK := by
  cases r <;> simp [filterOf, Filter.OK, Filter.new, Filter.newWithWindow, Filter.newWithFixedKernel,
    Filter.newWithArea]

theorem filterOf_area (L : Lib) (r : ResamplingFunction) (h : (filterOf ρ L r).isArea = true) : r = .area := by
  revert h
  cases r <;> simp [filterOf, Filter.new, Filter.newWithWindow, Filter.newWithFixedKernel,
    Filter.newWithArea]

/-- Both branches together. -/
theorem generateWeights_spec (h : RoundOK ρ) {f : Filter} (hf : f.OK) {inn out : ℕ} (h1 : 1 ≤ inn)
    (h2 : inn ≤ 2 ^ 23) (ha : f.isArea = true → ∀ i, i < out → areaSx ρ inn out i < inn) :
    ∃ fw, generateWeights ρ f inn out = some fw ∧ ValidTable fw inn out ∧
      ((¬ (f.isArea = true ∧ wScale ρ inn out < 1) ∧
        TableIs fw (wKernelSize ρ f inn out) out (genRow ρ f inn out) (genBound ρ f inn out)) ∨
       ((f.isArea = true ∧ wScale ρ inn out < 1) ∧
        TableIs fw 2 out (areaRow ρ inn out) (areaBound ρ inn out))) := by
  by_cases hb : f.isArea = true ∧ wScale ρ inn out < 1
  · obtain ⟨fw, e, t⟩ := generateWeights_area h hb h2 (ha hb.1)
    refine ⟨fw, e, t.valid (by omega) ?_, Or.inr ⟨hb, t⟩⟩
    intro i hi
    obtain ⟨w1, w2⟩ := area_window h (i := i) (out := out) h2 (ha hb.1 i hi)
    have := ha hb.1 i hi
    simp only [areaBound]
    omega
  · obtain ⟨fw, e, t⟩ := generateWeights_general (ρ := ρ) (f := f) (inn := inn) (out := out) hb
      (fun j _ => ⟨(window_ok h hf h1 h2 j).1, (window_ok h hf h1 h2 j).2.2⟩)
    refine ⟨fw, e, t.valid (wKernelSize_pos h hf) ?_, Or.inl ⟨hb, t⟩⟩
    intro i hi
    have := window_ok (out := out) h hf h1 h2 i
    simp only [genBound]
    omega

theorem sum_range_getD (l : List ℚ) : ∑ k ∈ Finset.range l.length, l.getD k 0 = l.sum := by
  induction l with
  | nil => simp
  | cons a t ih =>
    rw [List.length_cons, Finset.sum_range_succ', List.sum_cons, ← ih]
    simp [add_comm]

theorem TableIs.row_sum {fw : FilterWeights ℚ} {ks out : ℕ} {R : ℕ → List ℚ} {B : ℕ → Bounds}
    (h : TableIs fw ks out R B) {i : ℕ} (hi : i < out) :
    ∑ k ∈ Finset.range (fw.bound i).size, fw.weight i k = (R i).sum := by
  rw [h.bound hi, ← h.rowLen i hi, ← sum_range_getD]
  refine Finset.sum_congr rfl fun k hk => ?_
  rw [Finset.mem_range] at hk
  exact h.weight hi (lt_of_lt_of_le hk (h.rowLe i hi))

/-! Exact arithmetic. -/

theorem sumF_exact (ws : List ℚ) : sumF id ws = ws.sum := by
  unfold sumF
  have : ∀ s, ws.foldl (fun s w => id (s + w)) s = s + ws.sum := by
    induction ws with
    | nil => simp
    | cons a t ih => intro s; rw [List.foldl_cons, ih]; simp [add_assoc]
  rw [this, zero_add]

theorem ewaLoop_exact (prev sum : ℚ) (ws : List ℚ) :
    (ewaLoop id prev sum ws).2 = sum + (ewaLoop id prev sum ws).1.sum := by
  induction ws generalizing prev sum with
  | nil => simp [ewaLoop]
  | cons w ws ih => simp only [ewaLoop, ih, List.sum_cons, id]; ring

theorem preRow_exact (f : Filter) (ws : List ℚ) : (preRow id f ws).2 = (preRow id f ws).1.sum := by
  unfold preRow
  split
  · simp only [List.sum_cons]; rw [ewaLoop_exact]
  · exact sumF_exact _

theorem sum_map_mul (l : List ℚ) (c : ℚ) : (l.map fun v => v * c).sum = l.sum * c := by
  induction l with
  | nil => simp
  | cons a t ih => simp [ih, add_mul]

theorem normRow_exact (p : List ℚ × ℚ) (h : p.2 = p.1.sum) (h0 : p.2 ≠ 0) : (normRow id p).sum = 1 := by
  unfold normRow
  rw [if_pos h0]
  simp only [id]
  rw [sum_map_mul, ← h]
  field_simp

theorem normRow_zero (p : List ℚ × ℚ) (h0 : p.2 = 0) : normRow ρ p = List.replicate p.1.length 0 := by
  unfold normRow; simp [h0]

/-! Signs. -/

theorem sumF_nonneg (h : RoundOK ρ) (ws : List ℚ) (hw : ∀ w ∈ ws, 0 ≤ w) : 0 ≤ sumF ρ ws := by
  unfold sumF
  have : ∀ s, 0 ≤ s → 0 ≤ ws.foldl (fun s w => ρ (s + w)) s := by
    induction ws with
    | nil => intro s hs; simpa using hs
    | cons a t ih =>
      intro s hs
      simp only [List.foldl_cons]
      exact ih (fun w hw' => hw w (List.mem_cons_of_mem _ hw')) _
        (h.nonneg (add_nonneg hs (hw a List.mem_cons_self)))
  exact this 0 (le_refl _)

theorem ewa_coeff_nonneg (h : RoundOK ρ) : 0 ≤ ρ (7 / 10) ∧ 0 ≤ ρ (1 - ρ (7 / 10)) := by
  refine ⟨h.nonneg (by norm_num), h.nonneg ?_⟩
  have := h.mono (show (7 / 10 : ℚ) ≤ 1 by norm_num)
  rw [h.one] at this
  linarith

theorem ewaLoop_nonneg (h : RoundOK ρ) (prev sum : ℚ) (hp : 0 ≤ prev) (hs : 0 ≤ sum) (ws : List ℚ)
    (hw : ∀ w ∈ ws, 0 ≤ w) :
    (∀ w ∈ (ewaLoop ρ prev sum ws).1, 0 ≤ w) ∧ 0 ≤ (ewaLoop ρ prev sum ws).2 := by
  obtain ⟨c1, c2⟩ := ewa_coeff_nonneg h
  induction ws generalizing prev sum with
  | nil => simpa [ewaLoop] using hs
  | cons w ws ih =>
    have hn : 0 ≤ ρ (ρ (ρ (7 / 10) * w) + ρ (ρ (1 - ρ (7 / 10)) * prev)) :=
      h.nonneg (add_nonneg (h.nonneg (mul_nonneg c1 (hw w List.mem_cons_self)))
        (h.nonneg (mul_nonneg c2 hp)))
    obtain ⟨i1, i2⟩ := ih _ _ hn (h.nonneg (add_nonneg hs hn)) (fun w hw' => hw w (List.mem_cons_of_mem _ hw'))
    simp only [ewaLoop]
    refine ⟨?_, i2⟩
    intro v hv
    rcases List.mem_cons.1 hv with rfl | hv
    · exact hn
    · exact i1 v hv

theorem preRow_nonneg (h : RoundOK ρ) (f : Filter) (ws : List ℚ) (hw : ∀ w ∈ ws, 0 ≤ w) :
    (∀ w ∈ (preRow ρ f ws).1, 0 ≤ w) ∧ 0 ≤ (preRow ρ f ws).2 := by
  unfold preRow
  split
  · rename_i w0 rest _
    have h0 := hw w0 List.mem_cons_self
    obtain ⟨i1, i2⟩ := ewaLoop_nonneg h w0 w0 h0 h0 rest (fun w hw' => hw w (List.mem_cons_of_mem _ hw'))
    refine ⟨?_, i2⟩
    intro v hv
    rcases List.mem_cons.1 hv with rfl | hv
    · exact h0
    · exact i1 v hv
  · exact ⟨hw, sumF_nonneg h _ hw⟩

theorem normRow_nonneg (h : RoundOK ρ) (p : List ℚ × ℚ) (h1 : ∀ w ∈ p.1, 0 ≤ w) (h2 : 0 ≤ p.2) :
    ∀ w ∈ normRow ρ p, 0 ≤ w := by
  unfold normRow
  split_ifs
  · intro w hw
    obtain ⟨v, hv, rfl⟩ := List.mem_map.1 hw
    exact h.nonneg (mul_nonneg (h1 v hv) (h.nonneg (by positivity)))
  · intro w hw
    rw [List.mem_replicate] at hw
    rw [hw.2]

theorem rawRow_nonneg (f : Filter) (inn out i : ℕ)
    (hk : ∀ k, wStart ρ f inn out i ≤ k → k < wEnd ρ f inn out i → 0 ≤ rawWeight ρ f inn out i k) :
    ∀ w ∈ rawRow ρ f inn out i, 0 ≤ w := by
  intro w hw'
  obtain ⟨j, hj, rfl⟩ := List.mem_map.1 hw'
  rw [List.mem_range] at hj
  exact hk _ (by omega) (by omega)

theorem areaDx_range (h : RoundOK ρ) (inn out i : ℕ) : 0 ≤ areaDx ρ inn out i ∧ areaDx ρ inn out i ≤ 1 := by
  unfold areaDx
  simp only
  refine ⟨abs_nonneg _, ?_⟩
  split_ifs with h0
  · simp
  · set fx := ρ (ρ (i + 1 : ℕ) - ρ (ρ (areaSx ρ inn out i + 1) * ρ (1 / wScale ρ inn out)))
    have a1 : 0 ≤ fx - ⌊fx⌋ := by linarith [Int.floor_le fx]
    have a2 : fx - ⌊fx⌋ ≤ 1 := by linarith [Int.lt_floor_add_one fx]
    rw [abs_of_nonneg (h.nonneg a1)]
    have := h.mono a2
    rwa [h.one] at this

theorem areaRow_nonneg (h : RoundOK ρ) (inn out i : ℕ) : ∀ w ∈ areaRow ρ inn out i, 0 ≤ w := by
  obtain ⟨d0, d1⟩ := areaDx_range h inn out i
  have w0 : 0 ≤ ρ (1 - areaDx ρ inn out i) := h.nonneg (by linarith)
  have hp1 : ∀ w ∈ (areaPre ρ inn out i).1, 0 ≤ w := by
    intro w hw
    have := List.mem_of_mem_take hw
    simp only [List.mem_cons, List.not_mem_nil, or_false] at this
    rcases this with rfl | rfl <;> assumption
  have hp2 : 0 ≤ (areaPre ρ inn out i).2 := by
    unfold areaPre
    simp only
    have s0 : 0 ≤ ρ (0 + ρ (1 - areaDx ρ inn out i)) := h.nonneg (by linarith)
    split_ifs
    · exact h.nonneg (by linarith)
    · exact s0
  unfold areaRow
  simp only
  split_ifs
  · intro w hw
    obtain ⟨v, hv, rfl⟩ := List.mem_map.1 hw
    exact h.nonneg (mul_nonneg (hp1 v hv) (h.nonneg (by positivity)))
  · intro w hw
    have := List.mem_of_mem_take hw
    simp only [List.mem_cons, List.not_mem_nil, or_false] at this
    rcases this with rfl | rfl <;> norm_num

theorem areaRow_sum_exact (inn out i : ℕ) (hsz : 1 ≤ areaEnd id inn out i - areaStart id inn out i)
    (hsz2 : areaEnd id inn out i - areaStart id inn out i ≤ 2) :
    (areaRow id inn out i).sum = 1 := by
  have hdx : areaDx id inn out i < 1 := by
    unfold areaDx
    simp only [id]
    split_ifs with h0
    · simp
    · set fx := ((i + 1 : ℕ) : ℚ) - ((areaSx id inn out i : ℚ) + 1) * (1 / wScale id inn out)
      rw [abs_of_nonneg (by linarith [Int.floor_le fx])]
      linarith [Int.lt_floor_add_one fx]
  have hsum : (areaPre id inn out i).2 = (areaPre id inn out i).1.sum := by
    unfold areaPre
    have : areaEnd id inn out i - areaStart id inn out i = 1 ∨
        areaEnd id inn out i - areaStart id inn out i = 2 := by omega
    rcases this with e | e <;> simp [e]
  have hne : (areaPre id inn out i).2 ≠ 0 := by
    obtain ⟨d0, _⟩ := areaDx_range RoundOK.exact inn out i
    unfold areaPre
    simp only [id]
    split_ifs
    · linarith
    · intro hc; linarith
  unfold areaRow
  rw [if_pos hne]
  have := normRow_exact _ hsum hne
  unfold normRow at this
  rwa [if_pos hne] at this

/-- Exact arithmetic: some tap lies within half a pixel of the centre. -/
theorem centre_tap {f : Filter} {inn out : ℕ} (h1 : 1 ≤ inn) (h2 : inn ≤ 2 ^ 23)
    (hk : 2 ≤ wKernelSize id f inn out) (i : ℕ) :
    ∃ k, wStart id f inn out i ≤ k ∧ k < wEnd id f inn out i ∧
      |(k : ℚ) - (wCenter id inn out i - 1 / 2)| ≤ 1 / 2 := by
  set c := wCenter id inn out i with hc
  set r := wRadius id f inn out with hr
  have hc0 : 0 ≤ c := wCenter_nonneg RoundOK.exact i
  have hcn : c ≤ inn := by rw [hc]; unfold wCenter; exact min_le_right _ _
  have hks : (2 : ℚ) ≤ wKernelSize id f inn out := by exact_mod_cast hk
  have hr2 : r = (wKernelSize id f inn out : ℚ) / 2 := by rw [hr]; unfold wRadius; rfl
  have hr1 : 1 ≤ r := by rw [hr2]; linarith
  have hfc0 : (0 : ℤ) ≤ ⌊c⌋ := Int.floor_nonneg.2 hc0
  have hfl := Int.floor_le c
  have hfl2 := Int.lt_floor_add_one c
  set k : ℤ := min ⌊c⌋ (inn - 1) with hkdef
  have hk0 : 0 ≤ k := by omega
  have hkc : (k : ℚ) ≤ c := le_trans (by exact_mod_cast min_le_left _ _) hfl
  have hkc1 : c ≤ k + 1 := by
    rcases le_total ⌊c⌋ ((inn : ℤ) - 1) with hh | hh
    · have e : k = ⌊c⌋ := by omega
      rw [e]; linarith
    · have e : k = inn - 1 := by omega
      rw [e]; push_cast; linarith
  obtain ⟨kn, hkn⟩ := Int.eq_ofNat_of_zero_le hk0
  have hknq : (k : ℚ) = kn := by rw [hkn]; simp
  rw [hknq] at hkc hkc1
  have hstart : (wStart id f inn out i : ℤ) = max ⌊c - r⌋ 0 := by
    unfold wStart F32.toUsize
    simp only [id, ← hc, ← hr]
    omega
  have hsl : ((max ⌊c - r⌋ 0 : ℤ) : ℚ) ≤ kn := by
    have : max ⌊c - r⌋ 0 ≤ (kn : ℤ) := by
      rw [← hkn]
      have a1 : ⌊c - r⌋ ≤ ⌊c⌋ := Int.floor_mono (by linarith)
      have a2 : ⌊c - r⌋ ≤ (inn : ℤ) - 1 := by
        have : ⌊c - r⌋ < (inn : ℤ) := by rw [Int.floor_lt]; push_cast; linarith
        omega
      omega
    exact_mod_cast this
  have hsgt : c - r - 1 < (wStart id f inn out i : ℚ) := by
    have a := Int.lt_floor_add_one (c - r)
    have b : ((⌊c - r⌋ : ℤ) : ℚ) ≤ (wStart id f inn out i : ℚ) := by
      have : ⌊c - r⌋ ≤ (wStart id f inn out i : ℤ) := by rw [hstart]; omega
      exact_mod_cast this
    linarith
  refine ⟨kn, ?_, ?_, by rw [abs_le]; constructor <;> linarith⟩
  · have : (wStart id f inn out i : ℤ) ≤ kn := by rw [hstart]; exact_mod_cast hsl
    omega
  · unfold wEnd
    simp only [id, ← hc, ← hr]
    have key : ((kn : ℤ) + 1) ≤ ⌊min (min (⌈c + r⌉ : ℚ)
        ((wStart id f inn out i : ℚ) + (wKernelSize id f inn out : ℚ))) (inn : ℚ)⌋ := by
      rw [Int.le_floor]
      push_cast
      refine le_min (le_min ?_ ?_) ?_
      · exact le_trans (by linarith) (Int.le_ceil _)
      · have : (kn : ℚ) < wStart id f inn out i + wKernelSize id f inn out := by
          rw [hr2] at hsgt; linarith
        have : kn < wStart id f inn out i + wKernelSize id f inn out := by exact_mod_cast this
        exact_mod_cast this
      · have : (kn : ℤ) + 1 ≤ inn := by rw [← hkn]; omega
        exact_mod_cast this
    unfold F32.toUsize; omega

/-! Non-negativity of kernels. -/

theorem bilinear_nonneg (h : RoundOK ρ) (x : ℚ) : 0 ≤ Kernel.bilinear ρ x := by
  unfold Kernel.bilinear; simp only; split_ifs
  · exact h.nonneg (by linarith)
  · exact le_refl _

theorem RoundOK.le_one (h : RoundOK ρ) {q : ℚ} (hq : q ≤ 1) : ρ q ≤ 1 := by
  have := h.mono hq; rwa [h.one] at this

theorem RoundOK.nonpos (h : RoundOK ρ) {q : ℚ} (hq : q ≤ 0) : ρ q ≤ 0 := by
  have := h.mono hq; rwa [h.zero] at this

theorem welch_nonneg (h : RoundOK ρ) (x : ℚ) (hx : 0 ≤ x) : 0 ≤ Kernel.welch ρ x := by
  unfold Kernel.welch; split_ifs with a b
  · norm_num
  · exact le_refl _
  · refine h.nonneg ?_
    have := h.le_one (show x * x ≤ 1 by nlinarith)
    linarith

theorem quadric_nonneg (h : RoundOK ρ) (x : ℚ) : 0 ≤ Kernel.quadric ρ x := by
  unfold Kernel.quadric
  simp only
  have hx := abs_nonneg x
  split_ifs with a b
  · refine h.nonneg ?_
    have h1 := h.mono (show |x| * |x| ≤ ((1 : ℤ) : ℚ) / 2 by push_cast; nlinarith)
    rw [h.half 1 (by norm_num)] at h1
    push_cast at h1; linarith
  · have ht : ρ (|x| - 3 / 2) ≤ 0 := h.nonpos (by linarith)
    have h2 : ρ (1 / 2 * ρ (|x| - 3 / 2)) ≤ 0 := h.nonpos (by linarith)
    exact h.nonneg (mul_nonneg_of_nonpos_of_nonpos h2 ht)
  · exact le_refl _

theorem hann_nonneg (h : RoundOK ρ) (L : Lib) (x : ℚ) : 0 ≤ Kernel.hann ρ L x := by
  unfold Kernel.hann
  simp only
  split_ifs
  · exact le_refl _
  · exact h.nonneg (mul_nonneg (h.nonneg (mul_self_nonneg _)) (by norm_num))

theorem cubicSpline_exact_nonneg (x : ℚ) : 0 ≤ Kernel.cubicSpline id x := by
  unfold Kernel.cubicSpline
  simp only [id]
  have hx : 0 ≤ (if x < 0 then -x else x) := by split_ifs <;> linarith
  set y := if x < 0 then -x else x
  split_ifs with a b
  · have h1 : y * y ≤ 1 := by nlinarith
    have h2 : 0 ≤ y * y * (1 - y) := by nlinarith [mul_self_nonneg y]
    have h3 : 0 ≤ y * y * y := by positivity
    nlinarith
  · have : 8 + y * (-12 + y * (6 - y)) = (2 - y) * (2 - y) * (2 - y) := by ring
    rw [this]
    have h2 : 0 ≤ 2 - y := by linarith
    positivity
  · exact le_refl _

theorem bSpline_exact_nonneg (x : ℚ) : 0 ≤ Kernel.bSpline id x := by
  unfold Kernel.bSpline Kernel.bcSpline
  simp only [id]
  have hx : 0 ≤ (if x < 0 then -x else x) := by split_ifs <;> linarith
  set y := if x < 0 then -x else x
  split_ifs with a b
  · have h1 : y * y ≤ 1 := by nlinarith
    have h2 : 0 ≤ y * y * (1 - y) := by nlinarith [mul_self_nonneg y]
    have h3 : 0 ≤ y * y * y := by positivity
    nlinarith
  · have h2 : 0 ≤ 2 - y := by linarith
    have e : ((-1 - 6 * 0) * (y * y * y) + (6 * 1 + 30 * 0) * (y * y) + (-12 * 1 - 48 * 0) * y +
      (8 * 1 + 24 * 0)) * (1 / 6) = (2 - y) * (2 - y) * (2 - y) / 6 := by ring
    rw [e]; positivity
  · exact le_refl _

theorem hermite_exact_nonneg (x : ℚ) : 0 ≤ Kernel.hermiteSpline id x := by
  unfold Kernel.hermiteSpline Kernel.bcSpline
  simp only [id]
  have hx : 0 ≤ (if x < 0 then -x else x) := by split_ifs <;> linarith
  set y := if x < 0 then -x else x
  split_ifs with a b
  · have e : ((12 - 9 * 0 - 6 * 0) * (y * y * y) + (-18 + 12 * 0 + 6 * 0) * (y * y) + (6 - 2 * 0)) * (1 / 6) =
      (1 - y) * (1 - y) * (1 + 2 * y) := by ring
    rw [e]
    have h2 : 0 ≤ 1 - y := by linarith
    positivity
  · norm_num
  · exact le_refl _

end PicScale
