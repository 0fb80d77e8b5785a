import Verif.Lemmas.Quantise
import Verif.Lemmas.Kaiser

/-!
Property theorems about filter tables: C13, C14, C15, C16, C17, C43.

`generateWeights F32.rnd (filterOf F32.rnd L r) inn out` is the table the library computes in
binary32 for filter `r`; `L` (libm, Bessel) is arbitrary.
-/

namespace PicScale

open Finset

/-- **C13.** For every filter and every pair of sizes with source size at most `2^23` (for `Area`
also output size at most `2^22`) the table computation completes, and every output coordinate gets a
non-empty window inside the source, not longer than the kernel, although all of it is computed in
binary32. `ValidTable` is spelled out in `SpecTable.lean`. -/
theorem C13_windows_partial (L : Lib) (r : ResamplingFunction) (inn out : ℕ) (h1 : 1 ≤ inn)
    (h2 : inn ≤ 2 ^ 23) (ha : r = .area → out ≤ 2 ^ 22) :
    ∃ fw, generateWeights F32.rnd (filterOf F32.rnd L r) inn out = some fw ∧ ValidTable fw inn out := by
  obtain ⟨fw, e, v, _⟩ := generateWeights_spec RoundOK.rnd (filterOf_ok L r) (out := out) h1 h2
    (fun hA i hi => areaSx_rnd h1 h2 (ha (filterOf_area L r hA)) hi)
  exact ⟨fw, e, v⟩

/-- Arbitrary libm for the examples. -/
def demoLib : Lib := ⟨id, id, id, id, id, id, 3, 1⟩

/-- Concrete instances of C13: upscaling, downscaling and the largest admitted source. -/
example : ∃ fw, generateWeights F32.rnd (filterOf F32.rnd demoLib .lanczos3) (2 ^ 23) 1000 = some fw ∧
    ValidTable fw (2 ^ 23) 1000 := C13_windows_partial _ _ _ _ (by norm_num) (by norm_num) (by simp)
example : (generateWeights F32.rnd (filterOf F32.rnd demoLib .bilinear) 4 2).map (·.bounds) =
    some [⟨0, 3⟩, ⟨1, 3⟩] := by decide +kernel

/-- The same for any filter description with at least one tap and any rounding mode with the basic
properties (monotone, exact on small half integers), e.g. exact arithmetic. -/
theorem C13_windows_any_filter {ρ : ℚ → ℚ} (h : RoundOK ρ) (f : Filter) (hf : 1 ≤ f.minKernelSize)
    (hA : f.isArea = false) (inn out : ℕ) (h1 : 1 ≤ inn) (h2 : inn ≤ 2 ^ 23) :
    ∃ fw, generateWeights ρ f inn out = some fw ∧ ValidTable fw inn out := by
  obtain ⟨fw, e, v, _⟩ := generateWeights_spec h (f := f) hf (out := out) h1 h2 (by simp [hA])
  exact ⟨fw, e, v⟩

/-- The bounds written by the area loop, whatever they are. -/
theorem area_bounds {inn out : ℕ} : ∀ (m : ℕ) (st st' : WState),
    (List.range m).foldlM (areaStep F32.rnd inn out) st = some st' →
      st'.bounds = st.bounds ++ (List.range m).map (areaBound F32.rnd inn out) := by
  intro m
  induction m with
  | zero => intro st st' h; simp at h; simp [h]
  | succ m ih =>
    intro st st' h
    rw [List.range_succ, List.foldlM_append] at h
    cases h1 : (List.range m).foldlM (areaStep F32.rnd inn out) st with
    | none => rw [h1] at h; simp at h
    | some s1 =>
      rw [h1] at h
      have hb := ih st s1 h1
      have h2 : areaStep F32.rnd inn out s1 m = some st' := by simpa using h
      have : st'.bounds = s1.bounds ++ [areaBound F32.rnd inn out m] := by
        unfold areaStep at h2
        simp only at h2
        split_ifs at h2
        all_goals
          first
          | (rw [Option.some.injEq] at h2
             rw [← h2]; rfl)
          | (cases h3 : writeAt? s1.weights s1.filterPosition [1] with
             | none => simp [h3] at h2
             | some w =>
               simp [h3] at h2
               rw [← h2]; rfl)
      rw [this, hb, List.range_succ, List.map_append, List.append_assoc]; rfl

/-- The window the area branch stores for output coordinate `i`. -/
theorem area_bound_of_some {f : Filter} {inn out : ℕ} (hb : f.isArea = true ∧ wScale F32.rnd inn out < 1)
    {fw : FilterWeights ℚ} (h : generateWeights F32.rnd f inn out = some fw) {i : ℕ} (hi : i < out) :
    fw.bound i = areaBound F32.rnd inn out i := by
  unfold generateWeights at h
  rw [if_pos hb] at h
  cases h1 : (List.range out).foldlM (areaStep F32.rnd inn out)
      ⟨List.replicate (2 * out) 0, List.replicate 2 0, 0, []⟩ with
  | none => rw [h1] at h; simp at h
  | some st =>
    rw [h1] at h
    have hb := area_bounds _ _ _ h1
    simp only [Option.bind_eq_bind, Option.bind_some, Option.some.injEq] at h
    rw [← h]
    unfold FilterWeights.bound
    simp only [hb, List.nil_append]
    rw [List.getD_eq_getElem?_getD, List.getElem?_map, List.getElem?_range hi]
    rfl

/-- **C13 fails for huge `Area` upscaling**: from 16462 to 8425206 coordinates the window of the last
output coordinate would start at 16462, outside the source (binary32 rounding of `i * scale`). -/
theorem C13_area_violated (L : Lib) :
    ¬ ∃ fw, generateWeights F32.rnd (filterOf F32.rnd L .area) 16462 8425206 = some fw ∧
      ValidTable fw 16462 8425206 := by
  rintro ⟨fw, h, hV⟩
  have hsc : wScale F32.rnd 16462 8425206 < 1 := by decide +kernel
  have hbd := area_bound_of_some ⟨rfl, hsc⟩ h (i := 8425205) (by norm_num)
  have hv : areaBound F32.rnd 16462 8425206 8425205 = ⟨16462, 0⟩ := by decide +kernel
  rw [hv] at hbd
  have := hV.size_pos 8425205 (by norm_num)
  rw [hbd] at this
  exact absurd this (by decide)

/-- **C14.** One kernel of `kernelSize` weights per output coordinate; slots beyond the window are 0. -/
theorem C14_padding (L : Lib) (r : ResamplingFunction) (inn out : ℕ) (h1 : 1 ≤ inn)
    (h2 : inn ≤ 2 ^ 23) (ha : r = .area → out ≤ 2 ^ 22) :
    ∃ fw, generateWeights F32.rnd (filterOf F32.rnd L r) inn out = some fw ∧
      fw.weights.length = fw.kernelSize * out ∧ fw.alignedSize = fw.kernelSize ∧
      fw.distinctElements = out ∧
      ∀ i k, i < out → (fw.bound i).size ≤ k → k < fw.kernelSize → fw.weight i k = 0 := by
  obtain ⟨fw, e, v, t⟩ := generateWeights_spec RoundOK.rnd (filterOf_ok L r) (out := out) h1 h2
    (fun hA i hi => areaSx_rnd h1 h2 (ha (filterOf_area L r hA)) hi)
  have key : ∀ {ks R B}, TableIs fw ks out R B → fw.weights.length = fw.kernelSize * out ∧
      fw.alignedSize = fw.kernelSize ∧ fw.distinctElements = out ∧
      ∀ i k, i < out → (fw.bound i).size ≤ k → k < fw.kernelSize → fw.weight i k = 0 := by
    intro ks R B t
    refine ⟨by rw [t.len, t.kernel, Nat.mul_comm], by rw [t.aligned, t.kernel], t.distinct, ?_⟩
    intro i k hi hk hk2
    rw [t.kernel] at hk2
    rw [t.weight hi hk2, List.getD_eq_getElem?_getD, List.getElem?_eq_none]
    · rfl
    · rw [t.rowLen i hi, ← t.bound hi]; exact hk
  rcases t with ⟨_, t⟩ | ⟨_, t⟩ <;> exact ⟨fw, e, key t⟩

/-- A table with padding: bilinear 2 → 4 has windows of size 1 in kernels of size 2. -/
example : (generateWeights F32.rnd (filterOf F32.rnd demoLib .bilinear) 2 4).map
    (fun fw => (fw.kernelSize, fw.bounds, fw.weights)) =
    some (2, [⟨0, 2⟩, ⟨0, 2⟩, ⟨0, 2⟩, ⟨0, 2⟩], [1, 0, 3/4, 1/4, 1/4, 3/4, 0, 1]) := by decide +kernel
example : (generateWeights F32.rnd (filterOf F32.rnd demoLib .bilinear) 1 2).map
    (fun fw => (fw.kernelSize, fw.bounds, fw.weights)) =
    some (2, [⟨0, 1⟩, ⟨0, 1⟩], [1, 0, 1, 0]) := by decide +kernel

/-- **C15, exact arithmetic.** Weights of one output coordinate sum to one, or all of them are zero
(the code skips normalisation when the raw sum is zero). -/
theorem C15_normalised_partial (L : Lib) (r : ResamplingFunction) (inn out : ℕ) (h1 : 1 ≤ inn)
    (h2 : inn ≤ 2 ^ 23) :
    ∃ fw, generateWeights id (filterOf id L r) inn out = some fw ∧
      ∀ i, i < out → (∑ k ∈ range (fw.bound i).size, fw.weight i k = 1) ∨
        (∀ k, k < (fw.bound i).size → fw.weight i k = 0) := by
  obtain ⟨fw, e, v, t⟩ := generateWeights_spec RoundOK.exact (filterOf_ok L r) (out := out) h1 h2
    (fun hA i hi => areaSx_exact h1 hi)
  refine ⟨fw, e, fun i hi => ?_⟩
  rcases t with ⟨_, t⟩ | ⟨_, t⟩
  · rw [t.row_sum hi]
    by_cases h0 : (preRow id (filterOf id L r) (rawRow id (filterOf id L r) inn out i)).2 = 0
    · right
      intro k hk
      have hk2 := lt_of_lt_of_le hk (v.size_le i hi)
      rw [t.aligned] at hk2
      rw [t.weight hi hk2, genRow, normRow_zero _ h0, List.getD_eq_getElem?_getD, List.getElem?_replicate]
      split_ifs <;> rfl
    · left
      exact normRow_exact _ (preRow_exact _ _) h0
  · left
    rw [t.row_sum hi]
    have s1 := v.size_pos i hi
    have s2 := v.size_le i hi
    rw [t.bound hi] at s1 s2
    rw [t.aligned] at s2
    exact areaRow_sum_exact _ _ _ s1 s2

/-- Filters whose kernel is non-negative, positive near the centre, without window or EWA smoothing:
for them the raw sum is never zero. -/
def PositiveKernel (f : Filter) : Prop :=
  f.window = none ∧ f.isEwa = false ∧ 2 ≤ f.minKernelSize ∧ (∀ x, 0 ≤ x → 0 ≤ f.kernel x) ∧
    ∀ x, 0 ≤ x → x ≤ 1 / 2 → 0 < f.kernel x

/-- **C15, exact arithmetic, averaging filters**: the weights always sum to one. -/
theorem C15_positive_kernels_partial (f : Filter) (hf : PositiveKernel f) (inn out : ℕ) (h1 : 1 ≤ inn)
    (h2 : inn ≤ 2 ^ 23) :
    ∃ fw, generateWeights id f inn out = some fw ∧
      ∀ i, i < out → ∑ k ∈ range (fw.bound i).size, fw.weight i k = 1 := by
  obtain ⟨f1, f2, f3, f4, f5⟩ := hf
  have hok : f.OK := by unfold Filter.OK; linarith
  obtain ⟨fw, e, v, t⟩ := generateWeights_spec RoundOK.exact hok (out := out) h1 h2
    (fun hA i hi => areaSx_exact h1 hi)
  refine ⟨fw, e, fun i hi => ?_⟩
  rcases t with ⟨_, t⟩ | ⟨_, t⟩
  · rw [t.row_sum hi]
    have hc : 1 ≤ wCutoff id f inn out := by
      unfold wCutoff; split_ifs
      · exact le_max_right _ _
      · exact le_refl _
    have hks : 2 ≤ wKernelSize id f inn out := by
      unfold wKernelSize
      simp only [id]
      have h2' : (2 : ℚ) ≤ f.minKernelSize * wCutoff id f inn out := by nlinarith
      have h3 : (2 : ℤ) ≤ F32.round (f.minKernelSize * wCutoff id f inn out) := by
        unfold F32.round
        rw [if_pos (by linarith), Int.le_floor]
        push_cast; linarith
      unfold F32.toUsize; omega
    have hraw : ∀ k, rawWeight id f inn out i k =
        f.kernel (|(k : ℚ) - (wCenter id inn out i - 1 / 2)| * wFilterScale id f inn out) := by
      intro k; unfold rawWeight; rw [f1]; rfl
    have hfs0 : 0 ≤ wFilterScale id f inn out := by unfold wFilterScale; simp only [id]; positivity
    have hfs1 : wFilterScale id f inn out ≤ 1 := by
      unfold wFilterScale; simp only [id]
      rw [div_le_one (by linarith)]; exact hc
    have hnn : ∀ w ∈ rawRow id f inn out i, 0 ≤ w := by
      refine rawRow_nonneg f inn out i fun k _ _ => ?_
      rw [hraw]; exact f4 _ (mul_nonneg (abs_nonneg _) hfs0)
    obtain ⟨k, k1, k2, k3⟩ := centre_tap (out := out) h1 h2 hks i
    have hmem : rawWeight id f inn out i k ∈ rawRow id f inn out i := by
      unfold rawRow
      refine List.mem_map.2 ⟨k - wStart id f inn out i, List.mem_range.2 (by omega), ?_⟩
      congr 1; omega
    have hpos : 0 < rawWeight id f inn out i k := by
      rw [hraw]
      refine f5 _ (mul_nonneg (abs_nonneg _) hfs0) ?_
      calc _ ≤ (1 / 2 : ℚ) * 1 := mul_le_mul k3 hfs1 hfs0 (by norm_num)
        _ = 1 / 2 := by norm_num
    have hpre : preRow id f (rawRow id f inn out i) = (rawRow id f inn out i, sumF id (rawRow id f inn out i)) := by
      unfold preRow; rw [f2]
    refine normRow_exact _ (preRow_exact _ _) ?_
    rw [hpre]
    simp only
    rw [sumF_exact]
    have := List.single_le_sum hnn _ hmem
    linarith
  · rw [t.row_sum hi]
    have s1 := v.size_pos i hi
    have s2 := v.size_le i hi
    rw [t.bound hi] at s1 s2
    rw [t.aligned] at s2
    exact areaRow_sum_exact _ _ _ s1 s2

/-- The library's averaging filters are of that kind. -/
theorem positive_kernels (L : Lib) (r : ResamplingFunction)
    (hr : r ∈ [ResamplingFunction.bilinear, .box, .area, .bSpline, .cubic, .hermite, .quadric, .welch]) :
    PositiveKernel (filterOf id L r) := by
  simp only [List.mem_cons, List.not_mem_nil, or_false] at hr
  rcases hr with rfl | rfl | rfl | rfl | rfl | rfl | rfl | rfl
  all_goals
    refine ⟨rfl, rfl, by simp [filterOf, Filter.new, Filter.newWithArea], ?_, ?_⟩
  all_goals simp only [filterOf, Filter.new, Filter.newWithArea]
  · exact fun x _ => bilinear_nonneg RoundOK.exact x
  · intro x h0 h1
    unfold Kernel.bilinear; simp only [id]; rw [abs_of_nonneg h0, if_pos (by linarith)]; linarith
  · intro x _; norm_num [Kernel.boxWeight]
  · intro x _ _; norm_num [Kernel.boxWeight]
  · intro x _; norm_num [Kernel.boxWeight]
  · intro x _ _; norm_num [Kernel.boxWeight]
  · exact fun x _ => bSpline_exact_nonneg x
  · intro x h0 h1
    unfold Kernel.bSpline Kernel.bcSpline
    simp only [id, if_neg (not_lt.2 h0), if_pos (show x < 1 by linarith)]
    have : x * x ≤ 1 / 4 := by nlinarith
    have : 0 ≤ x * x * x := by positivity
    nlinarith
  · exact fun x _ => cubicSpline_exact_nonneg x
  · intro x h0 h1
    unfold Kernel.cubicSpline
    simp only [id, if_neg (not_lt.2 h0), if_pos (show x < 1 by linarith)]
    have : x * x ≤ 1 / 4 := by nlinarith
    have : 0 ≤ x * x * x := by positivity
    nlinarith
  · exact fun x _ => hermite_exact_nonneg x
  · intro x h0 h1
    unfold Kernel.hermiteSpline Kernel.bcSpline
    simp only [id, if_neg (not_lt.2 h0), if_pos (show x < 1 by linarith)]
    have : x * x ≤ 1 / 4 := by nlinarith
    have : 0 ≤ x * x * x := by positivity
    nlinarith
  · exact fun x _ => quadric_nonneg RoundOK.exact x
  · intro x h0 h1
    unfold Kernel.quadric
    simp only [id, abs_of_nonneg h0]
    split_ifs
    · nlinarith
    · nlinarith
    · linarith
  · exact fun x h0 => welch_nonneg RoundOK.exact x h0
  · intro x h0 h1
    unfold Kernel.welch
    simp only [id]
    split_ifs
    · norm_num
    · linarith
    · nlinarith

/-- Non-vacuity: three Box weights of a 3 → 1 reduction in exact arithmetic. -/
example : (generateWeights id (filterOf id demoLib .box) 3 1).map (·.weights) =
    some [1/3, 1/3, 1/3, 0, 0, 0] := by decide +kernel

/-- **C15 fails**: the Bartlett kernel vanishes at 0, so enlarging 1 → 3 gives the middle output
coordinate the single weight 0 (in binary32, as in the code), and the output pixel is black. -/
theorem C15_violated (L : Lib) :
    ∃ fw, generateWeights F32.rnd (filterOf F32.rnd L .bartlett) 1 3 = some fw ∧
      fw.bound 1 = ⟨0, 1⟩ ∧ ∑ k ∈ range (fw.bound 1).size, fw.weight 1 k = 0 := by
  have h : generateWeights F32.rnd (Filter.new (Kernel.bartlett F32.rnd) 2 false) 1 3 =
      some ⟨[1, 0, 0, 0, 1, 0], [⟨0, 1⟩, ⟨0, 1⟩, ⟨0, 1⟩], 2, 2, 3⟩ := by decide +kernel
  exact ⟨_, h, by decide, by decide +kernel⟩

/-- **C15 fails for every Jinc windowed filter too**, whatever the Bessel function: `lanczos_jinc(0)`
is coded as 0. -/
theorem C15_violated_jinc (L : Lib) :
    ∃ fw, generateWeights F32.rnd (filterOf F32.rnd L .lanczos3Jinc) 1 3 = some fw ∧
      ∑ k ∈ range (fw.bound 1).size, fw.weight 1 k = 0 := by
  obtain ⟨fw, e, v, t⟩ := generateWeights_spec RoundOK.rnd (filterOf_ok L .lanczos3Jinc) (inn := 1) (out := 3)
    (by norm_num) (by norm_num) (fun hA => by simp [filterOf, Filter.new] at hA)
  refine ⟨fw, e, ?_⟩
  rcases t with ⟨_, t⟩ | ⟨⟨hA, _⟩, _⟩
  · rw [t.row_sum (by norm_num)]
    have hk : rawRow F32.rnd (filterOf F32.rnd L .lanczos3Jinc) 1 3 1 = [0] := by
      unfold rawRow
      have e1 : wEnd F32.rnd (filterOf F32.rnd L .lanczos3Jinc) 1 3 1 = 1 := by
        show wEnd F32.rnd (Filter.new (fun x => Kernel.lanczosJinc F32.rnd L 3 x) 3 false) 1 3 1 = 1
        have : ∀ K, wEnd F32.rnd (Filter.new K 3 false) 1 3 1 =
          wEnd F32.rnd (Filter.new (fun x => x) 3 false) 1 3 1 := fun _ => rfl
        rw [this]; decide +kernel
      have e2 : wStart F32.rnd (filterOf F32.rnd L .lanczos3Jinc) 1 3 1 = 0 := by
        show wStart F32.rnd (Filter.new (fun x => Kernel.lanczosJinc F32.rnd L 3 x) 3 false) 1 3 1 = 0
        have : ∀ K, wStart F32.rnd (Filter.new K 3 false) 1 3 1 =
          wStart F32.rnd (Filter.new (fun x => x) 3 false) 1 3 1 := fun _ => rfl
        rw [this]; decide +kernel
      have e3 : rawWeight F32.rnd (filterOf F32.rnd L .lanczos3Jinc) 1 3 1 0 = 0 := by
        have : rawWeight F32.rnd (filterOf F32.rnd L .lanczos3Jinc) 1 3 1 0 =
          Kernel.lanczosJinc F32.rnd L 3
            (rawWeight F32.rnd (Filter.new (fun x => x) 3 false) 1 3 1 0) := rfl
        rw [this]
        have : rawWeight F32.rnd (Filter.new (fun x => x) 3 false) 1 3 1 0 = 0 := by decide +kernel
        rw [this]; unfold Kernel.lanczosJinc; simp
      rw [e1, e2]
      simp [e3]
    unfold genRow
    rw [hk, normRow_zero]
    · simp
    · have : preRow F32.rnd (filterOf F32.rnd L .lanczos3Jinc) [0] = ([0], sumF F32.rnd [0]) := rfl
      rw [this]; decide +kernel
  · simp [filterOf, Filter.new] at hA

/-- **C16.** Filters with non-negative kernel functions (in the rounded arithmetic the code uses)
give non-negative weights, EWA smoothing included. -/
theorem C16_nonneg_any_kernel {ρ : ℚ → ℚ} (h : RoundOK ρ) (f : Filter) (hf : 1 ≤ f.minKernelSize)
    (hw : f.window = none) (hk : ∀ x, 0 ≤ x → 0 ≤ f.kernel x) (inn out : ℕ) (h1 : 1 ≤ inn)
    (h2 : inn ≤ 2 ^ 23) (ha : f.isArea = true → ∀ i, i < out → areaSx ρ inn out i < inn) :
    ∃ fw, generateWeights ρ f inn out = some fw ∧ ∀ w ∈ fw.weights, 0 ≤ w := by
  obtain ⟨fw, e, v, t⟩ := generateWeights_spec h (f := f) hf (out := out) h1 h2 ha
  refine ⟨fw, e, ?_⟩
  have key : ∀ {ks R B}, TableIs fw ks out R B → (∀ i w, w ∈ R i → 0 ≤ w) → ∀ w ∈ fw.weights, 0 ≤ w := by
    intro ks R B t hR w hw
    rw [t.weights] at hw
    obtain ⟨j, _, hj⟩ := List.mem_flatMap.1 hw
    rcases List.mem_append.1 hj with hj | hj
    · exact hR j w hj
    · rw [(List.mem_replicate.1 hj).2]
  rcases t with ⟨_, t⟩ | ⟨_, t⟩
  · refine key t fun i w hw' => ?_
    obtain ⟨p1, p2⟩ := preRow_nonneg h f (rawRow ρ f inn out i) (rawRow_nonneg f inn out i fun k _ _ => by
      unfold rawWeight
      rw [hw]
      refine hk _ (h.nonneg (mul_nonneg (abs_nonneg _) ?_))
      unfold wFilterScale
      refine h.nonneg (div_nonneg (by norm_num) ?_)
      unfold wCutoff
      split_ifs
      · exact le_trans (by norm_num) (le_max_right _ _)
      · norm_num)
    exact normRow_nonneg h _ p1 p2 w hw'
  · exact key t fun i w hw' => areaRow_nonneg h inn out i w hw'

/-- **C16** for the library's filters in binary32: Bilinear, Box, Area, Quadric, EwaQuadric, Welch and
Hann produce non-negative weights for all sizes, and Hamming, Hanning, Gaussian and Kaiser too if the mathematical library
keeps its bounds. (Hermite violates it, `C16_violated`.) -/
theorem C16_nonneg_partial (L : Lib) (r : ResamplingFunction)
    (hr : Averages L r)
    (inn out : ℕ) (h1 : 1 ≤ inn) (h2 : inn ≤ 2 ^ 23) (ha : r = .area → out ≤ 2 ^ 22) :
    ∃ fw, generateWeights F32.rnd (filterOf F32.rnd L r) inn out = some fw ∧ ∀ w ∈ fw.weights, 0 ≤ w := by
  refine C16_nonneg_any_kernel RoundOK.rnd _ (filterOf_ok L r) ?_ ?_ inn out h1 h2
    (fun hA i hi => areaSx_rnd h1 h2 (ha (filterOf_area L r hA)) hi)
  all_goals
    rcases hr with hr | ⟨hr, hL⟩
    swap
  · exact (LibmBounds_kernel hL hr).1
  rotate_left
  · exact fun x hx => ((LibmBounds_kernel hL hr).2 x hx).1
  all_goals
    simp only [averaging, List.mem_cons, List.not_mem_nil, or_false] at hr
    rcases hr with rfl | rfl | rfl | rfl | rfl | rfl | rfl
  all_goals simp only [filterOf, Filter.new, Filter.newWithArea]
  · exact fun x _ => bilinear_nonneg RoundOK.rnd x
  · intro x _; norm_num [Kernel.boxWeight]
  · intro x _; norm_num [Kernel.boxWeight]
  · exact fun x _ => quadric_nonneg RoundOK.rnd x
  · exact fun x _ => quadric_nonneg RoundOK.rnd x
  · exact fun x h0 => welch_nonneg RoundOK.rnd x h0
  · exact fun x _ => hann_nonneg RoundOK.rnd L x

example : ∃ fw, generateWeights F32.rnd (filterOf F32.rnd demoLib .welch) 1000 333 = some fw ∧
    ∀ w ∈ fw.weights, 0 ≤ w := C16_nonneg_partial _ _ (Or.inl (by decide)) _ _ (by norm_num) (by norm_num) (by simp)

/-- **C16 fails for Hermite**: enlarging 3 → 183, tap 1 of output coordinate 152 gets a (tiny)
negative weight, because the polynomial is evaluated in binary32 next to its double root. -/
theorem C16_violated (L : Lib) :
    ∃ fw, generateWeights F32.rnd (filterOf F32.rnd L .hermite) 3 183 = some fw ∧ fw.weight 152 0 < 0 := by
  obtain ⟨fw, e, v, t⟩ := generateWeights_spec RoundOK.rnd (filterOf_ok L .hermite) (inn := 3) (out := 183)
    (by norm_num) (by norm_num) (fun hA => by simp [filterOf, Filter.new] at hA)
  refine ⟨fw, e, ?_⟩
  rcases t with ⟨_, t⟩ | ⟨⟨hA, _⟩, _⟩
  · have hks : wKernelSize F32.rnd (filterOf F32.rnd L .hermite) 3 183 = 2 := by
      show wKernelSize F32.rnd (Filter.new (Kernel.hermiteSpline F32.rnd) 2 false) 3 183 = 2
      decide +kernel
    rw [t.weight (by norm_num) (by rw [hks]; norm_num)]
    show (genRow F32.rnd (Filter.new (Kernel.hermiteSpline F32.rnd) 2 false) 3 183 152).getD 0 0 < 0
    decide +kernel
  · simp [filterOf, Filter.new] at hA

/-- **C17.** Quantising a weight table: same windows, same shape; every weight becomes an `i16`; each
one is within half a unit of `weight·2^15` whenever that fits `i16`, monotone in the weight, and
saturates above (weight `1` becomes `32767`). -/
theorem C17_quantised (L : Lib) (r : ResamplingFunction) (inn out : ℕ) (h1 : 1 ≤ inn)
    (h2 : inn ≤ 2 ^ 23) (ha : r = .area → out ≤ 2 ^ 22) :
    ∃ fw, generateWeights F32.rnd (filterOf F32.rnd L r) inn out = some fw ∧
      let q := numericalApproximation F32.rnd fw
      ValidTable q inn out ∧ q.bounds = fw.bounds ∧ q.alignedSize = fw.alignedSize ∧
      (∀ i k, -32768 ≤ q.weight i k ∧ q.weight i k ≤ 32767) ∧
      (∀ i k, -1 ≤ fw.weight i k → fw.weight i k ≤ 32767 / 32768 →
        |(q.weight i k : ℚ) - fw.weight i k * 2 ^ 15| ≤ 1 / 2) ∧
      (∀ i k, 32767 / 32768 ≤ fw.weight i k → q.weight i k = 32767) ∧
      (∀ i k i' k', fw.weight i k ≤ fw.weight i' k' → q.weight i k ≤ q.weight i' k') := by
  obtain ⟨fw, e, v, t⟩ := generateWeights_spec RoundOK.rnd (filterOf_ok L r) (out := out) h1 h2
    (fun hA i hi => areaSx_rnd h1 h2 (ha (filterOf_area L r hA)) hi)
  refine ⟨fw, e, ?_⟩
  have hshape : fw.kernelSize = fw.alignedSize ∧ fw.distinctElements = out := by
    rcases t with ⟨_, t⟩ | ⟨_, t⟩ <;> exact ⟨by rw [t.kernel, t.aligned], t.distinct⟩
  have hrep : ∀ w ∈ fw.weights, F32.Rep w := by
    have r0 : F32.Rep 0 := F32.rep_nat (n := 0) (by norm_num)
    have key : ∀ {ks R B}, TableIs fw ks out R B → (∀ i w, w ∈ R i → F32.Rep w) →
        ∀ w ∈ fw.weights, F32.Rep w := by
      intro ks R B t hR w hw
      rw [t.weights] at hw
      obtain ⟨j, _, hj⟩ := List.mem_flatMap.1 hw
      rcases List.mem_append.1 hj with hj | hj
      · exact hR j w hj
      · rw [(List.mem_replicate.1 hj).2]; exact r0
    rcases t with ⟨_, t⟩ | ⟨_, t⟩
    · refine key t fun i w hw => ?_
      unfold genRow normRow at hw
      split_ifs at hw
      · obtain ⟨_, _, rfl⟩ := List.mem_map.1 hw; exact F32.rep_rnd _
      · rw [(List.mem_replicate.1 hw).2]; exact r0
    · refine key t fun i w hw => ?_
      unfold areaRow at hw
      simp only at hw
      split_ifs at hw
      · obtain ⟨_, _, rfl⟩ := List.mem_map.1 hw; exact F32.rep_rnd _
      · have := List.mem_of_mem_take hw
        simp only [List.mem_cons, List.not_mem_nil, or_false] at this
        rcases this with rfl | rfl
        · simpa using F32.rep_nat (n := 1) (by norm_num)
        · exact r0
  have hw := numericalApproximation_weights (ρ := F32.rnd) fw (by rw [hshape.1]; exact v.aligned_pos)
    (by rw [v.weights_len, hshape.1, hshape.2])
  have hq : ∀ i k, (numericalApproximation F32.rnd fw).weight i k = quantise F32.rnd (fw.weight i k) := by
    intro i k
    unfold FilterWeights.weight
    rw [hw]
    have : (numericalApproximation F32.rnd fw).alignedSize = fw.alignedSize := hshape.1
    rw [this, List.getD_eq_getElem?_getD, List.getD_eq_getElem?_getD, List.getElem?_map]
    cases fw.weights[i * fw.alignedSize + k]? with
    | none => simp [quantise_zero RoundOK.rnd]
    | some w => rfl
  have hrepw : ∀ i k, F32.Rep (fw.weight i k) := by
    intro i k
    unfold FilterWeights.weight
    rw [List.getD_eq_getElem?_getD]
    cases hh : fw.weights[i * fw.alignedSize + k]? with
    | none => exact F32.rep_nat (n := 0) (by norm_num)
    | some w => exact hrep w (List.mem_of_getElem? hh)
  refine ⟨⟨v.bounds_len, by rw [hw, List.length_map, v.weights_len, ← hshape.1]; rfl, ?_, v.size_pos, ?_, v.inside⟩,
    rfl, hshape.1, ?_, ?_, ?_, ?_⟩
  · show 0 < fw.kernelSize
    rw [hshape.1]; exact v.aligned_pos
  · intro i hi
    show (fw.bound i).size ≤ fw.kernelSize
    rw [hshape.1]; exact v.size_le i hi
  · intro i k; rw [hq]; exact quantise_range _
  · intro i k l u
    rw [hq]
    have := quantise_err (hrepw i k) l u
    norm_num at this ⊢
    exact this
  · intro i k l
    rw [hq]
    have h3 := quantise_mono RoundOK.rnd l
    have h4 : quantise F32.rnd (32767 / 32768) = 32767 := by decide +kernel
    have := (quantise_range (ρ := F32.rnd) (fw.weight i k)).2
    omega
  · intro i k i' k' l
    rw [hq, hq]; exact quantise_mono RoundOK.rnd l

example : (generateWeights F32.rnd (filterOf F32.rnd demoLib .bilinear) 2 4).map
    (fun fw => (numericalApproximation F32.rnd fw).weights) =
    some [32767, 0, 24576, 8192, 8192, 24576, 0, 32767] := by decide +kernel

/-- **C43.** Numeric filter ids: ids 0..=48 name 49 different filters, every filter has an id, all
other numbers mean Bilinear (the function is total). -/
theorem C43_filter_ids :
    (∀ i j, i ≤ 48 → j ≤ 48 → ResamplingFunction.ofU32 i = ResamplingFunction.ofU32 j → i = j) ∧
    (∀ r : ResamplingFunction, ∃ i, i ≤ 48 ∧ ResamplingFunction.ofU32 i = r) ∧
    (∀ n, 48 < n → ResamplingFunction.ofU32 n = .bilinear) := by
  refine ⟨?_, ?_, ?_⟩
  · have : ∀ i : Fin 49, ∀ j : Fin 49, ResamplingFunction.ofU32 i = ResamplingFunction.ofU32 j → i = j := by
      decide +kernel
    intro i j hi hj h
    have := this ⟨i, by omega⟩ ⟨j, by omega⟩ h
    simpa using this
  · intro r
    cases r <;>
      first
      | exact ⟨0, by decide, rfl⟩ | exact ⟨1, by decide, rfl⟩ | exact ⟨2, by decide, rfl⟩ | exact ⟨3, by decide, rfl⟩
      | exact ⟨4, by decide, rfl⟩ | exact ⟨5, by decide, rfl⟩ | exact ⟨6, by decide, rfl⟩ | exact ⟨7, by decide, rfl⟩
      | exact ⟨8, by decide, rfl⟩ | exact ⟨9, by decide, rfl⟩ | exact ⟨10, by decide, rfl⟩ | exact ⟨11, by decide, rfl⟩
      | exact ⟨12, by decide, rfl⟩ | exact ⟨13, by decide, rfl⟩ | exact ⟨14, by decide, rfl⟩ | exact ⟨15, by decide, rfl⟩
      | exact ⟨16, by decide, rfl⟩ | exact ⟨17, by decide, rfl⟩ | exact ⟨18, by decide, rfl⟩ | exact ⟨19, by decide, rfl⟩
      | exact ⟨20, by decide, rfl⟩ | exact ⟨21, by decide, rfl⟩ | exact ⟨22, by decide, rfl⟩ | exact ⟨23, by decide, rfl⟩
      | exact ⟨24, by decide, rfl⟩ | exact ⟨25, by decide, rfl⟩ | exact ⟨26, by decide, rfl⟩ | exact ⟨27, by decide, rfl⟩
      | exact ⟨28, by decide, rfl⟩ | exact ⟨29, by decide, rfl⟩ | exact ⟨30, by decide, rfl⟩ | exact ⟨31, by decide, rfl⟩
      | exact ⟨32, by decide, rfl⟩ | exact ⟨33, by decide, rfl⟩ | exact ⟨34, by decide, rfl⟩ | exact ⟨35, by decide, rfl⟩
      | exact ⟨36, by decide, rfl⟩ | exact ⟨37, by decide, rfl⟩ | exact ⟨38, by decide, rfl⟩ | exact ⟨39, by decide, rfl⟩
      | exact ⟨40, by decide, rfl⟩ | exact ⟨41, by decide, rfl⟩ | exact ⟨42, by decide, rfl⟩ | exact ⟨43, by decide, rfl⟩
      | exact ⟨44, by decide, rfl⟩ | exact ⟨45, by decide, rfl⟩ | exact ⟨46, by decide, rfl⟩ | exact ⟨47, by decide, rfl⟩
      | exact ⟨48, by decide, rfl⟩
  · intro n hn
    unfold ResamplingFunction.ofU32
    split <;> first | rfl | omega

example : ResamplingFunction.ofU32 48 = .area ∧ ResamplingFunction.ofU32 49 = .bilinear := ⟨rfl, rfl⟩

end PicScale
