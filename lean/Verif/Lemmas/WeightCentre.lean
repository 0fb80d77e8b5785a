import Verif.Lemmas.WeightBounds

/-!
Rounded arithmetic: some tap of every window lies within half a pixel of the centre, so averaging
kernels never lose all their weight; quantised weights add up to about `2^15`.
-/

namespace PicScale

open F32

variable {ρ : ℚ → ℚ}

theorem wCutoff_one_le (f : Filter) (inn out : ℕ) : 1 ≤ wCutoff ρ f inn out := by
  unfold wCutoff; split_ifs
  · exact le_max_right _ _
  · exact le_refl _

theorem wCutoff_le (h : RoundOK ρ) (f : Filter) {inn out : ℕ} (h2 : inn ≤ 2 ^ 23) (hi : 1 ≤ out) :
    wCutoff ρ f inn out ≤ 2 ^ 23 := by
  unfold wCutoff; split_ifs
  · refine max_le ?_ (by norm_num)
    unfold wScale
    rw [h.nat (by omega : inn ≤ 2 ^ 24)]
    have ho : 1 ≤ ρ (out : ℚ) := h.one_le (by exact_mod_cast hi)
    have : (inn : ℚ) / ρ out ≤ ((2 ^ 23 : ℕ) : ℚ) := by
      rw [div_le_iff₀ (by linarith)]
      have : (inn : ℚ) ≤ ((2 ^ 23 : ℕ) : ℚ) := by exact_mod_cast h2
      nlinarith
    have := h.mono this
    rw [h.nat (n := 2 ^ 23) (by norm_num)] at this
    refine le_trans this (le_of_eq (by norm_num))
  · norm_num

theorem wKernelSize_range (h : RoundOK ρ) (f : Filter) {inn out : ℕ} (h2 : inn ≤ 2 ^ 23) (hi : 1 ≤ out)
    (hm : f.minKernelSize = 2) : 2 ≤ wKernelSize ρ f inn out ∧ wKernelSize ρ f inn out ≤ 2 ^ 24 := by
  have c1 := wCutoff_one_le (ρ := ρ) f inn out
  have c2 := wCutoff_le h f h2 hi
  unfold wKernelSize
  rw [hm]
  have a1 : 2 ≤ ρ (2 * wCutoff ρ f inn out) := by
    have := h.mono (show ((2 : ℕ) : ℚ) ≤ 2 * wCutoff ρ f inn out by push_cast; linarith)
    rwa [h.nat (by norm_num)] at this
  have a2 : ρ (2 * wCutoff ρ f inn out) ≤ 2 ^ 24 := by
    have := h.mono (show 2 * wCutoff ρ f inn out ≤ ((2 ^ 24 : ℕ) : ℚ) by push_cast; linarith)
    rw [h.nat (by norm_num)] at this
    push_cast at this; exact this
  have b1 := F32.round_mono a1
  have b2 := F32.round_mono a2
  have e1 : F32.round (2 : ℚ) = 2 := by
    unfold F32.round; rw [if_pos (by norm_num), Int.floor_eq_iff]; norm_num
  have e2 : F32.round (2 ^ 24 : ℚ) = 2 ^ 24 := by
    unfold F32.round; rw [if_pos (by norm_num), Int.floor_eq_iff]; norm_num
  rw [e1] at b1; rw [e2] at b2
  unfold F32.toUsize
  omega

/-- Some tap lies within half a pixel of the centre, also after rounding. -/
theorem centre_tap_rounded (h : RoundOK ρ) {f : Filter} {inn out : ℕ} (h1 : 1 ≤ inn) (h2 : inn ≤ 2 ^ 23)
    (hk : 2 ≤ wKernelSize ρ f inn out) (hk2 : wKernelSize ρ f inn out ≤ 2 ^ 24) (i : ℕ) :
    ∃ k, wStart ρ f inn out i ≤ k ∧ k < wEnd ρ f inn out i ∧
      |ρ (ρ k - ρ (wCenter ρ inn out i - 1 / 2))| ≤ 1 / 2 := by
  set c := wCenter ρ inn out i with hc
  set ks := wKernelSize ρ f inn out with hksd
  have hρn : ρ (inn : ℚ) = inn := h.nat (by omega)
  have hρk : ρ (ks : ℚ) = ks := h.nat hk2
  have hc0 : 0 ≤ c := wCenter_nonneg h i
  have hcn : c ≤ inn := by rw [hc]; unfold wCenter; rw [hρn]; exact min_le_right _ _
  have hr2 : wRadius ρ f inn out = (ks : ℚ) / 2 := by
    unfold wRadius
    rw [← hksd, hρk]
    have := h.half (ks : ℤ) (by rw [abs_of_nonneg (by omega)]; exact_mod_cast hk2)
    push_cast at this; exact this
  have hksq : (2 : ℚ) ≤ ks := by exact_mod_cast hk
  have hfc0 : (0 : ℤ) ≤ ⌊c⌋ := Int.floor_nonneg.2 hc0
  have hfl := Int.floor_le c
  have hfl2 := Int.lt_floor_add_one c
  set k : ℤ := min ⌊c⌋ (inn - 1) with hkdef
  have hk0 : 0 ≤ k := by omega
  have hkc : (k : ℚ) ≤ c := le_trans (by exact_mod_cast min_le_left _ _) hfl
  have hkc1 : c ≤ k + 1 := by
    rcases le_total ⌊c⌋ ((inn : ℤ) - 1) with hh | hh
    · have e : k = ⌊c⌋ := by omega
      rw [e]; linarith
    · have e : k = inn - 1 := by omega
      rw [e]; push_cast; linarith
  obtain ⟨kn, hkn⟩ := Int.eq_ofNat_of_zero_le hk0
  have hknq : (k : ℚ) = kn := by rw [hkn]; simp
  rw [hknq] at hkc hkc1
  have hkni : kn + 1 ≤ inn := by omega
  have hstart : (wStart ρ f inn out i : ℤ) = max ⌊ρ (c - wRadius ρ f inn out)⌋ 0 := by
    unfold wStart F32.toUsize
    rw [← hc]
    omega
  rw [hr2] at hstart
  have lo : ((2 * kn - ks : ℤ) : ℚ) / 2 ≤ ρ (c - ks / 2) := by
    have := h.mono (show ((2 * kn - ks : ℤ) : ℚ) / 2 ≤ c - ks / 2 by push_cast; linarith)
    rwa [h.half _ (by rw [abs_le]; constructor <;> omega)] at this
  have up : ρ (c - ks / 2) ≤ kn := by
    have := h.mono (show c - ks / 2 ≤ (kn : ℚ) by linarith)
    rwa [h.nat (by omega)] at this
  have hs1 : wStart ρ f inn out i ≤ kn := by
    have : ⌊ρ (c - ks / 2)⌋ ≤ (kn : ℤ) := by
      have := Int.floor_mono up
      simpa using this
    omega
  have hs2 : kn + 1 ≤ wStart ρ f inn out i + ks := by
    have a := Int.lt_floor_add_one (ρ (c - ks / 2))
    have b : ((2 * kn - ks : ℤ) : ℚ) / 2 < ((⌊ρ (c - ks / 2)⌋ + 1 : ℤ) : ℚ) := by push_cast at a lo ⊢; linarith
    have b' : ((2 * kn - ks : ℤ) : ℚ) < ((2 * (⌊ρ (c - ks / 2)⌋ + 1) : ℤ) : ℚ) := by
      rw [div_lt_iff₀ (by norm_num)] at b
      push_cast at b ⊢; linarith
    have b'' : (2 * kn - ks : ℤ) < 2 * (⌊ρ (c - ks / 2)⌋ + 1) := by exact_mod_cast b'
    omega
  refine ⟨kn, hs1, ?_, ?_⟩
  · unfold wEnd
    rw [← hc, hr2, ← hksd, hρk, hρn]
    have hρs : ρ (wStart ρ f inn out i : ℚ) = wStart ρ f inn out i := h.nat (by omega)
    rw [hρs]
    have key : ((kn : ℤ) + 1) ≤ ⌊min (min (⌈ρ (c + (ks : ℚ) / 2)⌉ : ℚ)
        (ρ ((wStart ρ f inn out i : ℚ) + (ks : ℚ)))) (inn : ℚ)⌋ := by
      rw [Int.le_floor]
      push_cast
      refine le_min (le_min ?_ ?_) ?_
      · refine le_trans ?_ (Int.le_ceil _)
        have := h.mono (show (((kn + 1 : ℕ) : ℕ) : ℚ) ≤ c + ks / 2 by push_cast; linarith)
        rw [h.nat (by omega)] at this
        push_cast at this; exact this
      · have hs2q : (((kn + 1 : ℕ) : ℕ) : ℚ) ≤ (wStart ρ f inn out i : ℚ) + ks := by exact_mod_cast hs2
        have := h.mono hs2q
        rw [h.nat (by omega)] at this
        push_cast at this; exact this
      · exact_mod_cast hkni
    unfold F32.toUsize; omega
  · rw [h.nat (by omega : kn ≤ 2 ^ 24)]
    have a1 : (kn : ℚ) - 1 / 2 ≤ ρ (c - 1 / 2) := by
      have := h.mono (show ((2 * kn - 1 : ℤ) : ℚ) / 2 ≤ c - 1 / 2 by push_cast; linarith)
      rw [h.half _ (by rw [abs_le]; constructor <;> omega)] at this
      push_cast at this; linarith
    have a2 : ρ (c - 1 / 2) ≤ (kn : ℚ) + 1 / 2 := by
      have := h.mono (show c - 1 / 2 ≤ ((2 * kn + 1 : ℤ) : ℚ) / 2 by push_cast; linarith)
      rw [h.half _ (by rw [abs_le]; constructor <;> omega)] at this
      push_cast at this; linarith
    have b1 : ρ ((kn : ℚ) - ρ (c - 1 / 2)) ≤ 1 / 2 := by
      have := h.mono (show (kn : ℚ) - ρ (c - 1 / 2) ≤ ((1 : ℤ) : ℚ) / 2 by push_cast; linarith)
      rw [h.half _ (by norm_num)] at this
      push_cast at this; linarith
    have b2 : -(1 / 2) ≤ ρ ((kn : ℚ) - ρ (c - 1 / 2)) := by
      have := h.mono (show ((-1 : ℤ) : ℚ) / 2 ≤ (kn : ℚ) - ρ (c - 1 / 2) by push_cast; linarith)
      rw [h.half _ (by norm_num)] at this
      push_cast at this; linarith
    rw [abs_le]; exact ⟨b2, b1⟩

/-- What the error analysis needs from a filter: no window, support 2, kernel values are
non-negative binary32 numbers, at most one and at least one half near the centre. -/
structure Averaging (f : Filter) : Prop where
  window : f.window = none
  support : f.minKernelSize = 2
  nonneg : ∀ x, 0 ≤ x → 0 ≤ f.kernel x
  rep : ∀ x, 0 ≤ x → Rep (f.kernel x)
  le_one : ∀ x, 0 ≤ x → f.kernel x ≤ 1
  centre : ∀ x, 0 ≤ x → x ≤ 1 / 2 → 1 / 2 ≤ f.kernel x

theorem rawWeight_plain {f : Filter} (hw : f.window = none) (h : RoundOK ρ) (inn out i k : ℕ) :
    ∃ x, 0 ≤ x ∧ rawWeight ρ f inn out i k = f.kernel x ∧
      (|ρ (ρ k - ρ (wCenter ρ inn out i - 1 / 2))| ≤ 1 / 2 → x ≤ 1 / 2) := by
  have hc := wCutoff_one_le (ρ := ρ) f inn out
  have f0 : 0 ≤ wFilterScale ρ f inn out := h.nonneg (by positivity)
  have f1 : wFilterScale ρ f inn out ≤ 1 := h.le_one (by rw [div_le_one (by linarith)]; exact hc)
  refine ⟨_, ?_, by unfold rawWeight; rw [hw], ?_⟩
  · exact h.nonneg (mul_nonneg (abs_nonneg _) f0)
  · intro hx
    have : |ρ (ρ k - ρ (wCenter ρ inn out i - 1 / 2))| * wFilterScale ρ f inn out ≤ ((1 : ℤ) : ℚ) / 2 := by
      push_cast; nlinarith [abs_nonneg (ρ (ρ k - ρ (wCenter ρ inn out i - 1 / 2)))]
    have := h.mono this
    rw [h.half _ (by norm_num)] at this
    push_cast at this; exact this

theorem rawRow_length (f : Filter) (inn out i : ℕ) :
    (rawRow ρ f inn out i).length = (genBound ρ f inn out i).size := by simp [rawRow, genBound]

theorem rawRow_mem {f : Filter} (hw : f.window = none) (h : RoundOK ρ) (inn out i : ℕ) :
    ∀ w ∈ rawRow ρ f inn out i, ∃ x, 0 ≤ x ∧ w = f.kernel x := by
  intro w hw'
  obtain ⟨j, hj, rfl⟩ := List.mem_map.1 hw'
  obtain ⟨x, x0, e, _⟩ := rawWeight_plain hw h inn out i (wStart ρ f inn out i + j)
  exact ⟨x, x0, e⟩

/-- The EWA loop keeps at least a quarter of a weight of one half. -/
theorem ewaLoop_keeps (prev sum : ℚ) (hp : 0 ≤ prev) (ws : List ℚ) (hw : ∀ w ∈ ws, 0 ≤ w)
    (hx : ∃ w ∈ ws, 1 / 2 ≤ w) : ∃ w ∈ (ewaLoop F32.rnd prev sum ws).1, 1 / 4 ≤ w := by
  obtain ⟨c1, c2⟩ := ewa_coeff_nonneg RoundOK.rnd
  have hh : (1 : ℚ) / 2 ≤ F32.rnd (7 / 10) := by
    have := RoundOK.rnd.mono (show ((1 : ℤ) : ℚ) / 2 ≤ 7 / 10 by norm_num)
    rw [RoundOK.rnd.half _ (by norm_num)] at this
    push_cast at this; exact this
  have hq : F32.rnd (1 / 4) = 1 / 4 := (show Rep (1 / 4) from ⟨1, -2, by norm_num, by norm_num, by norm_num⟩).rnd
  induction ws generalizing prev sum with
  | nil => simp at hx
  | cons w ws ih =>
    have hw0 := hw w List.mem_cons_self
    have n1 : 0 ≤ F32.rnd (F32.rnd (7 / 10) * w) := RoundOK.rnd.nonneg (mul_nonneg c1 hw0)
    have n2 : 0 ≤ F32.rnd (F32.rnd (1 - F32.rnd (7 / 10)) * prev) := RoundOK.rnd.nonneg (mul_nonneg c2 hp)
    simp only [ewaLoop]
    obtain ⟨x, hxm, hx2⟩ := hx
    rcases List.mem_cons.1 hxm with rfl | hxm
    · refine ⟨_, List.mem_cons_self, ?_⟩
      have a : (1 : ℚ) / 4 ≤ F32.rnd (F32.rnd (7 / 10) * x) := by
        have := RoundOK.rnd.mono (show (1 : ℚ) / 4 ≤ F32.rnd (7 / 10) * x by nlinarith)
        rwa [hq] at this
      have := RoundOK.rnd.mono (show (1 : ℚ) / 4 ≤ F32.rnd (F32.rnd (7 / 10) * x) +
        F32.rnd (F32.rnd (1 - F32.rnd (7 / 10)) * prev) by linarith)
      rwa [hq] at this
    · obtain ⟨y, hy, hy2⟩ := ih _ _ (RoundOK.rnd.nonneg (add_nonneg n1 n2))
        (fun w h => hw w (List.mem_cons_of_mem _ h)) ⟨x, hxm, hx2⟩
      exact ⟨y, List.mem_cons_of_mem _ hy, hy2⟩

theorem ewaLoop_le_one (prev sum : ℚ) (hp : 0 ≤ prev ∧ prev ≤ 2) (ws : List ℚ) (hw : ∀ w ∈ ws, 0 ≤ w ∧ w ≤ 2) :
    ∀ w ∈ (ewaLoop F32.rnd prev sum ws).1, w ≤ 2 := by
  obtain ⟨c1, c2⟩ := ewa_coeff_nonneg RoundOK.rnd
  have hc : F32.rnd (F32.rnd (7 / 10) * 2) + F32.rnd (F32.rnd (1 - F32.rnd (7 / 10)) * 2) ≤ 2 := by decide +kernel
  have h2 : F32.rnd 2 = 2 := by
    have := RoundOK.rnd.nat (n := 2) (by norm_num)
    push_cast at this; exact this
  induction ws generalizing prev sum with
  | nil => simp [ewaLoop]
  | cons w ws ih =>
    obtain ⟨w0, w1⟩ := hw w List.mem_cons_self
    simp only [ewaLoop]
    have hn : F32.rnd (F32.rnd (F32.rnd (7 / 10) * w) + F32.rnd (F32.rnd (1 - F32.rnd (7 / 10)) * prev)) ≤ 2 := by
      have a := RoundOK.rnd.mono (show F32.rnd (7 / 10) * w ≤ F32.rnd (7 / 10) * 2 by nlinarith)
      have b := RoundOK.rnd.mono (show F32.rnd (1 - F32.rnd (7 / 10)) * prev ≤ F32.rnd (1 - F32.rnd (7 / 10)) * 2 by nlinarith [hp.2])
      have := RoundOK.rnd.mono (le_trans (add_le_add a b) hc)
      rwa [h2] at this
    have h0 : 0 ≤ F32.rnd (F32.rnd (F32.rnd (7 / 10) * w) + F32.rnd (F32.rnd (1 - F32.rnd (7 / 10)) * prev)) :=
      RoundOK.rnd.nonneg (add_nonneg (RoundOK.rnd.nonneg (mul_nonneg c1 w0)) (RoundOK.rnd.nonneg (mul_nonneg c2 hp.1)))
    intro x hx
    rcases List.mem_cons.1 hx with rfl | hx
    · exact hn
    · exact ih _ _ ⟨h0, hn⟩ (fun w h => hw w (List.mem_cons_of_mem _ h)) x hx

/-- Quantised non-negative weights that add up to about one add up to about `2^15`. -/
theorem quantised_sum_near (l : List ℚ) (hl : ∀ w ∈ l, 0 ≤ w ∧ Rep w) {δ : ℚ} (hδ : |l.sum - 1| ≤ δ) :
    |(((l.map (quantise F32.rnd)).sum : ℤ) : ℚ) - 32768| ≤ l.length / 2 + 1 + 65536 * δ := by
  have one : ∀ w : ℚ, 0 ≤ w → Rep w → w * 32768 - 1 / 2 - max (w * 32768 - 32767) 0 ≤ (quantise F32.rnd w : ℚ) ∧
      (quantise F32.rnd w : ℚ) ≤ w * 32768 + 1 / 2 := by
    intro w w0 wr
    have he := F32.round_err (w * 32768)
    have hr0 : 0 ≤ F32.round (w * 32768) := by
      unfold F32.round; rw [if_pos (by linarith)]; exact Int.floor_nonneg.2 (by linarith)
    rw [abs_le] at he
    unfold quantise
    rw [wr.scale.rnd]
    have e : max (min (F32.round (w * 32768)) 32767) (-32768) = min (F32.round (w * 32768)) 32767 := by omega
    rw [e]
    push_cast
    refine ⟨?_, le_trans (min_le_left _ _) (by linarith [he.2])⟩
    refine le_min ?_ ?_
    · have := le_max_right (w * 32768 - 32767) 0
      linarith [he.1]
    · have := le_max_left (w * 32768 - 32767) 0
      linarith
  have key : ∀ l : List ℚ, (∀ w ∈ l, 0 ≤ w ∧ Rep w) →
      l.sum * 32768 - l.length / 2 - max (l.sum * 32768 - 32767) 0 ≤ (((l.map (quantise F32.rnd)).sum : ℤ) : ℚ) ∧
        (((l.map (quantise F32.rnd)).sum : ℤ) : ℚ) ≤ l.sum * 32768 + l.length / 2 := by
    intro l hl
    induction l with
    | nil => simp
    | cons a t ih =>
      obtain ⟨a0, ar⟩ := hl a List.mem_cons_self
      have ht : ∀ w ∈ t, 0 ≤ w ∧ Rep w := fun w h => hl w (List.mem_cons_of_mem _ h)
      obtain ⟨i1, i2⟩ := ih ht
      obtain ⟨o1, o2⟩ := one a a0 ar
      have hs : 0 ≤ t.sum := List.sum_nonneg fun w h => (ht w h).1
      simp only [List.map_cons, List.sum_cons, List.length_cons]
      push_cast
      refine ⟨?_, by linarith⟩
      have : max (a * 32768 - 32767) 0 + max (t.sum * 32768 - 32767) 0 ≤ max ((a + t.sum) * 32768 - 32767) 0 := by
        rcases le_total (a * 32768 - 32767) 0 with q1 | q1 <;> rcases le_total (t.sum * 32768 - 32767) 0 with q2 | q2
        · rw [max_eq_right q1, max_eq_right q2, add_zero]; exact le_max_right _ _
        · rw [max_eq_right q1, max_eq_left q2]
          exact le_trans (by linarith) (le_max_left _ _)
        · rw [max_eq_left q1, max_eq_right q2]
          exact le_trans (by linarith) (le_max_left _ _)
        · rw [max_eq_left q1, max_eq_left q2]
          exact le_trans (by linarith) (le_max_left _ _)
      linarith
  obtain ⟨k1, k2⟩ := key l hl
  rw [abs_le] at hδ ⊢
  have d0 : 0 ≤ δ := by linarith [hδ.1, hδ.2]
  have : max (l.sum * 32768 - 32767) 0 ≤ 1 + 32768 * δ := max_le (by linarith [hδ.2]) (by linarith)
  constructor
  · linarith [hδ.1]
  · linarith [hδ.2]

/-- The raw weights of an averaging filter and their sum. -/
theorem averaging_pre {f : Filter} (hf : Averaging f) {inn out : ℕ} (h1 : 1 ≤ inn) (h2 : inn ≤ 2 ^ 23)
    (ho : 1 ≤ out) (i : ℕ) (hlen : (rawRow F32.rnd f inn out i).length ≤ 2 ^ 23) :
    let p := preRow F32.rnd f (rawRow F32.rnd f inn out i)
    SumNear p ∧ (∀ w ∈ p.1, 0 ≤ w ∧ Rep w) ∧ 0 < p.2 ∧ p.2 ≤ 2 ^ 126 ∧ p.1.length ≤ 2 ^ 23 := by
  intro p
  obtain ⟨k1, k2⟩ := wKernelSize_range RoundOK.rnd f h2 ho hf.support
  have hraw : ∀ w ∈ rawRow F32.rnd f inn out i, (0 ≤ w ∧ Rep w) ∧ w ≤ 2 := by
    intro w hw
    obtain ⟨x, x0, rfl⟩ := rawRow_mem hf.window RoundOK.rnd inn out i w hw
    have := hf.le_one x x0
    exact ⟨⟨hf.nonneg x x0, hf.rep x x0⟩, by linarith⟩
  obtain ⟨a1, a2⟩ := preRow_near f _ (fun w h => (hraw w h).1) hlen
  have hl : p.1.length ≤ 2 ^ 23 := by
    show (preRow F32.rnd f (rawRow F32.rnd f inn out i)).1.length ≤ 2 ^ 23
    rw [preRow_length]; exact hlen
  have hcentre : ∃ w ∈ rawRow F32.rnd f inn out i, 1 / 2 ≤ w := by
    obtain ⟨k, c1, c2, c3⟩ := centre_tap_rounded RoundOK.rnd h1 h2 k1 k2 i
    obtain ⟨x, x0, e, ex⟩ := rawWeight_plain hf.window RoundOK.rnd inn out i k
    refine ⟨rawWeight F32.rnd f inn out i k, ?_, ?_⟩
    · unfold rawRow
      refine List.mem_map.2 ⟨k - wStart F32.rnd f inn out i, List.mem_range.2 (by omega), ?_⟩
      have : wStart F32.rnd f inn out i + (k - wStart F32.rnd f inn out i) = k := by omega
      rw [this]
    · rw [e]; exact hf.centre x x0 (ex c3)
  have hmem : ∃ w ∈ p.1, 1 / 4 ≤ w := by
    show ∃ w ∈ (preRow F32.rnd f (rawRow F32.rnd f inn out i)).1, 1 / 4 ≤ w
    revert hraw hcentre
    generalize rawRow F32.rnd f inn out i = ws
    intro hraw hcentre
    unfold preRow
    obtain ⟨x, hx, hx2⟩ := hcentre
    split
    · rename_i w0 rest hE
      rcases List.mem_cons.1 hx with rfl | hx
      · exact ⟨x, List.mem_cons_self, by linarith⟩
      · obtain ⟨y, hy, hy2⟩ := ewaLoop_keeps w0 w0 (hraw w0 List.mem_cons_self).1.1 rest
          (fun w h => (hraw w (List.mem_cons_of_mem _ h)).1.1) ⟨x, hx, hx2⟩
        exact ⟨y, List.mem_cons_of_mem _ hy, hy2⟩
    · exact ⟨x, hx, by linarith⟩
  have hle2 : ∀ w ∈ p.1, w ≤ 2 := by
    show ∀ w ∈ (preRow F32.rnd f (rawRow F32.rnd f inn out i)).1, w ≤ 2
    revert hraw
    generalize rawRow F32.rnd f inn out i = ws
    intro hraw
    unfold preRow
    split
    · rename_i w0 rest hE
      intro w hw
      have h0 := hraw w0 List.mem_cons_self
      rcases List.mem_cons.1 hw with rfl | hw
      · exact h0.2
      · exact ewaLoop_le_one w0 w0 ⟨h0.1.1, h0.2⟩ rest
          (fun w h => ⟨(hraw w (List.mem_cons_of_mem _ h)).1.1, (hraw w (List.mem_cons_of_mem _ h)).2⟩) w hw
    · exact fun w hw => (hraw w hw).2
  have hnu := nu_le hl
  obtain ⟨x, hx, hx2⟩ := hmem
  have hs : 1 / 4 ≤ p.1.sum := le_trans hx2 (List.single_le_sum (fun w h => (a2 w h).1) _ hx)
  have hs2 : p.1.sum ≤ 2 ^ 24 := by
    have := List.sum_le_card_nsmul p.1 2 hle2
    rw [nsmul_eq_mul] at this
    have h3 : (p.1.length : ℚ) ≤ 2 ^ 23 := by exact_mod_cast hl
    linarith
  have hp0 : 0 < p.2 := by
    have := a1.1
    have : (1 - (p.1.length : ℚ) * u24) * p.1.sum ≤ p.2 := this
    nlinarith
  refine ⟨a1, a2, hp0, ?_, hl⟩
  have : p.2 * (1 - (p.1.length : ℚ) * u24) ≤ p.1.sum := a1.2
  have h5 : p.2 * (1 / 2) ≤ p.1.sum := by nlinarith
  have : p.2 ≤ 2 ^ 25 := by linarith
  refine le_trans this (by norm_num)

/-- The normalised weights of an averaging filter add up to one up to rounding. -/
theorem averaging_row_sum {f : Filter} (hf : Averaging f) {inn out : ℕ} (h1 : 1 ≤ inn) (h2 : inn ≤ 2 ^ 23)
    (ho : 1 ≤ out) (i : ℕ) (hlen : (rawRow F32.rnd f inn out i).length ≤ 2 ^ 23) :
    |(genRow F32.rnd f inn out i).sum - 1| ≤ (2 * (genBound F32.rnd f inn out i).size + 5) * u24 := by
  obtain ⟨a, b, c, d, e⟩ := averaging_pre hf h1 h2 ho i hlen
  have := normRow_sum_near _ (fun w h => (b w h).1) c d e a
  rw [preRow_length, rawRow_length] at this
  exact this

theorem normRow_rep (p : List ℚ × ℚ) : ∀ w ∈ normRow F32.rnd p, Rep w := by
  unfold normRow
  split_ifs
  · intro w hw
    obtain ⟨v, _, rfl⟩ := List.mem_map.1 hw
    exact rep_rnd _
  · intro w hw
    rw [(List.mem_replicate.1 hw).2]
    exact ⟨0, 0, by simp, by norm_num, by omega⟩

theorem F32.Rep.abs {q : ℚ} (h : Rep q) : Rep |q| := by
  rcases abs_choice q with h' | h' <;> rw [h']
  · exact h
  · obtain ⟨m, e, rfl, hm, he⟩ := h
    exact ⟨-m, e, by push_cast; ring, by rwa [abs_neg], he⟩

/-- The two-tap rows of the `Area` upscaling branch. -/
theorem areaRow_sum_near {inn out i : ℕ} (hs : 1 ≤ areaEnd F32.rnd inn out i - areaStart F32.rnd inn out i)
    (hs2 : areaEnd F32.rnd inn out i - areaStart F32.rnd inn out i ≤ 2) :
    |(areaRow F32.rnd inn out i).sum - 1| ≤ (2 * (areaBound F32.rnd inn out i).size + 5) * u24 ∧
      ∀ w ∈ areaRow F32.rnd inn out i, Rep w := by
  obtain ⟨d0, d1⟩ := areaDx_range RoundOK.rnd inn out i
  have rep0 : Rep 0 := ⟨0, 0, by simp, by norm_num, by omega⟩
  have rep1 : Rep 1 := ⟨1, 0, by simp, by norm_num, by omega⟩
  have dr : Rep (areaDx F32.rnd inn out i) := by
    unfold areaDx
    simp only
    apply F32.Rep.abs
    split_ifs
    · exact rep0
    · exact rep_rnd _
  set p := areaPre F32.rnd inn out i with hp
  have hsz : (areaBound F32.rnd inn out i).size = areaEnd F32.rnd inn out i - areaStart F32.rnd inn out i := rfl
  rw [hsz]
  set n := areaEnd F32.rnd inn out i - areaStart F32.rnd inn out i with hn
  have w0 : 0 ≤ F32.rnd (1 - areaDx F32.rnd inn out i) := RoundOK.rnd.nonneg (by linarith)
  have w1 : F32.rnd (1 - areaDx F32.rnd inn out i) ≤ 1 := RoundOK.rnd.le_one (by linarith)
  have wr : Rep (F32.rnd (1 - areaDx F32.rnd inn out i)) := rep_rnd _
  have hp1 : p.1 = [F32.rnd (1 - areaDx F32.rnd inn out i), areaDx F32.rnd inn out i].take n := by
    rw [hp]; unfold areaPre; rfl
  have hpm : ∀ w ∈ p.1, (0 ≤ w ∧ Rep w) ∧ w ≤ 1 := by
    intro w hw
    rw [hp1] at hw
    have := List.mem_of_mem_take hw
    simp only [List.mem_cons, List.not_mem_nil, or_false] at this
    rcases this with rfl | rfl
    · exact ⟨⟨w0, wr⟩, w1⟩
    · exact ⟨⟨d0, dr⟩, d1⟩
  have hpl : p.1.length = n := by rw [hp1, List.length_take]; simp; omega
  have hp2 : p.2 = p.1.foldl (fun s w => F32.rnd (s + w)) 0 := by
    have : p.2 = if 1 < n then F32.rnd (F32.rnd (0 + F32.rnd (1 - areaDx F32.rnd inn out i)) + areaDx F32.rnd inn out i)
        else F32.rnd (0 + F32.rnd (1 - areaDx F32.rnd inn out i)) := by rw [hp]; unfold areaPre; rfl
    rw [this, hp1]
    have : n = 1 ∨ n = 2 := by omega
    rcases this with e | e <;> rw [e] <;> simp
  obtain ⟨b1, b2, _⟩ := foldl_sum_bounds p.1 (fun w h => (hpm w h).1) 0 (le_refl _) rep0
  rw [zero_add, ← hp2] at b1 b2
  have hT : 0 ≤ p.1.sum := List.sum_nonneg fun w h => (hpm w h).1.1
  have hl : p.1.length ≤ 2 ^ 23 := by rw [hpl]; omega
  have hS : SumNear p := sumNear_of hl hT b1 b2
  have hp0 : 0 ≤ p.2 := le_trans (mul_nonneg (pow_nonneg (by unfold u24; norm_num) _) hT) b1
  unfold areaRow
  simp only [← hp]
  split_ifs with h0
  · have hs2 : p.1.sum ≤ 2 := by
      have := List.sum_le_card_nsmul p.1 1 fun w h => (hpm w h).2
      rw [nsmul_eq_mul, hpl] at this
      have h3 : (n : ℚ) ≤ 2 := by exact_mod_cast hs2
      linarith
    have hnu := nu_le hl
    have h4 : p.2 ≤ 2 ^ 126 := by
      have h3 : p.2 * (1 - (p.1.length : ℚ) * u24) ≤ p.1.sum := hS.2
      have : p.2 * (1 / 2) ≤ p.1.sum := by nlinarith
      have : p.2 ≤ 4 := by linarith
      exact le_trans this (by norm_num)
    have hpos : 0 < p.2 := lt_of_le_of_ne hp0 (Ne.symm h0)
    have := normRow_sum_near p (fun w h => (hpm w h).1.1) hpos h4 hl hS
    have hr := normRow_rep p
    unfold normRow at this hr
    rw [if_pos h0] at this hr
    rw [hpl] at this
    exact ⟨this, hr⟩
  · have e : n = 1 ∨ n = 2 := by omega
    constructor
    · have : (([1, 0] : List ℚ).take (areaEnd F32.rnd inn out i - areaStart F32.rnd inn out i)).sum = 1 := by
        rw [← hn]; rcases e with e | e <;> rw [e] <;> simp
      rw [this, sub_self, abs_zero]
      have := u24_pos
      positivity
    · intro w hw
      have := List.mem_of_mem_take hw
      simp only [List.mem_cons, List.not_mem_nil, or_false] at this
      rcases this with rfl | rfl
      · exact rep1
      · exact rep0

end PicScale
