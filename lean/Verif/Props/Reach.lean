import Verif.Props.Geometry
import Verif.Props.Neon
import Verif.Props.NeonF32
import Verif.SpecReach

/-!
C273: how far a resize looks: which source pixels can influence an output pixel, filter by filter.
-/

namespace PicScale

open F32 Spec

theorem kernelWidth_filter (L : Lib) (r : ResamplingFunction) :
    (filterOf rnd L r).minKernelSize = kernelWidth r ∧
      ((filterOf rnd L r).isResizable = true ↔ ¬ r ∈ [ResamplingFunction.spline16, .spline36, .spline64]) ∧
      1 ≤ kernelWidth r ∧ kernelWidth r ≤ 6 := by
  cases r <;> simp [filterOf, Filter.new, Filter.newWithWindow, Filter.newWithFixedKernel, Filter.newWithArea, kernelWidth]

theorem rnd_err15 {q B : ℚ} (h : |q| ≤ B) : |rnd q - q| ≤ B / 2 ^ 24 + 1 / 2 ^ 150 := by
  refine le_trans (rnd_err_le q) ?_
  have : |q| / 2 ^ 24 ≤ B / 2 ^ 24 := by gcongr
  linarith

theorem wScale_near {inn out : ℕ} (h2 : inn ≤ 2 ^ 15) (ho : 1 ≤ out) (ho2 : out ≤ 2 ^ 15) :
    |wScale rnd inn out - inn / out| ≤ (inn : ℚ) / out / 2 ^ 24 + 1 / 2 ^ 150 := by
  unfold wScale
  rw [RoundOK.rnd.nat (n := inn) (by omega), RoundOK.rnd.nat (n := out) (by omega)]
  refine rnd_err15 (le_of_eq ?_)
  exact abs_of_nonneg (by positivity)

theorem ratio_le {inn out : ℕ} (h2 : inn ≤ 2 ^ 15) (ho : 1 ≤ out) : (inn : ℚ) / out ≤ 2 ^ 15 := by
  rw [div_le_iff₀ (by exact_mod_cast ho)]
  have h : (inn : ℚ) ≤ 2 ^ 15 := by exact_mod_cast h2
  have : (1 : ℚ) ≤ out := by exact_mod_cast ho
  nlinarith

theorem wCenter_near {inn out i : ℕ} (h2 : inn ≤ 2 ^ 15) (hi : i < out) (ho2 : out ≤ 2 ^ 15) :
    |wCenter rnd inn out i - centre inn out i| ≤ 1 / 2 ^ 7 := by
  have ho : 1 ≤ out := by omega
  have hoq : (0 : ℚ) < out := by exact_mod_cast ho
  have hc0 : centre inn out i ≤ inn := by
    unfold centre
    rw [← mul_div_assoc, div_le_iff₀ hoq, mul_comm]
    have : (i : ℚ) + 1 ≤ out := by exact_mod_cast hi
    have : (0 : ℚ) ≤ inn := by positivity
    nlinarith
  have hc1 : 0 ≤ centre inn out i := by unfold centre; positivity
  have hq : (inn : ℚ) ≤ 2 ^ 15 := by exact_mod_cast h2
  have hi2 : (i : ℚ) + 1 / 2 ≤ 2 ^ 15 := by
    have a : (i : ℚ) + 1 ≤ out := by exact_mod_cast hi
    have b : (out : ℚ) ≤ 2 ^ 15 := by exact_mod_cast ho2
    linarith
  have e1 : rnd ((i : ℚ) + 1 / 2) = i + 1 / 2 := by
    have := RoundOK.rnd.half (2 * i + 1 : ℤ) (by rw [abs_of_nonneg (by omega)]; omega)
    push_cast at this
    rw [show (i : ℚ) + 1 / 2 = (2 * i + 1) / 2 by ring]; exact this
  have s1 := wScale_near h2 ho ho2
  unfold wCenter
  rw [RoundOK.rnd.nat (n := i) (by omega), e1, RoundOK.rnd.nat (n := inn) (by omega)]
  set s := wScale rnd inn out
  have m1 : |((i : ℚ) + 1 / 2) * s - centre inn out i| ≤ 1 / 2 ^ 8 := by
    have : ((i : ℚ) + 1 / 2) * s - centre inn out i = (i + 1 / 2) * (s - inn / out) := by unfold centre; ring
    rw [this, abs_mul, abs_of_nonneg (by positivity : (0 : ℚ) ≤ (i : ℚ) + 1 / 2)]
    have a : ((i : ℚ) + 1 / 2) * ((inn : ℚ) / out / 2 ^ 24 + 1 / 2 ^ 150) = centre inn out i / 2 ^ 24 + (i + 1 / 2) / 2 ^ 150 := by
      unfold centre; ring
    have b := mul_le_mul_of_nonneg_left s1 (by positivity : (0 : ℚ) ≤ (i : ℚ) + 1 / 2)
    rw [a] at b
    refine le_trans b ?_
    have c : centre inn out i / 2 ^ 24 ≤ 2 ^ 15 / 2 ^ 24 := by gcongr; linarith
    have d : ((i : ℚ) + 1 / 2) / 2 ^ 150 ≤ 2 ^ 15 / 2 ^ 150 := by gcongr
    refine le_trans (add_le_add c d) (by norm_num)
  have m2 : |rnd (((i : ℚ) + 1 / 2) * s) - ((i : ℚ) + 1 / 2) * s| ≤ 1 / 2 ^ 8 := by
    have b : |((i : ℚ) + 1 / 2) * s| ≤ 2 ^ 15 + 1 := by
      rw [abs_le] at m1 ⊢
      constructor <;> linarith [m1.1, m1.2, (by norm_num : (1 : ℚ) / 2 ^ 8 ≤ 1)]
    exact le_trans (rnd_err15 b) (by norm_num)
  rw [abs_le] at m1 m2 ⊢
  rcases min_cases (rnd (((i : ℚ) + 1 / 2) * s)) (inn : ℚ) with ⟨e, l⟩ | ⟨e, l⟩ <;> rw [e] <;> constructor <;>
    linarith [m1.1, m1.2, m2.1, m2.2, (by norm_num : (1 : ℚ) / 2 ^ 7 = 1 / 2 ^ 8 + 1 / 2 ^ 8)]

theorem abs_max_one_le (a b : ℚ) : |max a 1 - max b 1| ≤ |a - b| := by
  have h := abs_nonneg (a - b)
  have h1 := le_abs_self (a - b)
  have h2 := neg_le_abs (a - b)
  rw [abs_le]
  rcases max_cases a 1 with ⟨e, _⟩ | ⟨e, _⟩ <;> rcases max_cases b 1 with ⟨e', _⟩ | ⟨e', _⟩ <;> rw [e, e'] <;>
    constructor <;> linarith

theorem wCutoff_near (L : Lib) (r : ResamplingFunction) {inn out : ℕ} (h2 : inn ≤ 2 ^ 15) (ho : 1 ≤ out) (ho2 : out ≤ 2 ^ 15) :
    |wCutoff rnd (filterOf rnd L r) inn out - stretch r inn out| ≤ 1 / 2 ^ 8 := by
  obtain ⟨_, hr, _⟩ := kernelWidth_filter L r
  unfold wCutoff stretch
  by_cases h : r ∈ [ResamplingFunction.spline16, .spline36, .spline64]
  · rw [if_pos h, if_neg (by rw [hr]; exact not_not.2 h)]; norm_num
  · rw [if_neg h, if_pos (hr.2 h)]
    have s1 := wScale_near h2 ho ho2
    have s2 := ratio_le h2 ho
    refine le_trans (abs_max_one_le _ _) (le_trans s1 ?_)
    have c : (inn : ℚ) / out / 2 ^ 24 ≤ 2 ^ 15 / 2 ^ 24 := by gcongr
    refine le_trans (add_le_add c le_rfl) (by norm_num)

theorem stretch_range (r : ResamplingFunction) {inn out : ℕ} (h2 : inn ≤ 2 ^ 15) (ho : 1 ≤ out) :
    1 ≤ stretch r inn out ∧ stretch r inn out ≤ 2 ^ 15 := by
  unfold stretch
  split_ifs
  · norm_num
  · exact ⟨le_max_right _ _, max_le (ratio_le h2 ho) (by norm_num)⟩

theorem wKernelSize_le (L : Lib) (r : ResamplingFunction) {inn out : ℕ} (h2 : inn ≤ 2 ^ 15) (ho : 1 ≤ out) (ho2 : out ≤ 2 ^ 15) :
    (wKernelSize rnd (filterOf rnd L r) inn out : ℚ) ≤ kernelWidth r * stretch r inn out + 9 / 16 := by
  obtain ⟨hm, _, hk1, hk6⟩ := kernelWidth_filter L r
  obtain ⟨t1, t2⟩ := stretch_range r h2 ho
  have hk1' : (1 : ℚ) ≤ kernelWidth r := by exact_mod_cast hk1
  have hk6' : (kernelWidth r : ℚ) ≤ 6 := by exact_mod_cast hk6
  have hc := wCutoff_near L r h2 ho ho2
  have c1 := wCutoff_one_le (ρ := rnd) (filterOf rnd L r) inn out
  unfold wKernelSize
  rw [hm]
  set c := wCutoff rnd (filterOf rnd L r) inn out
  set m : ℚ := (kernelWidth r : ℚ)
  set t := stretch r inn out
  rw [abs_le] at hc
  have p1 : m * c ≤ m * t + 6 / 2 ^ 8 := by
    have : m * (c - t) ≤ m * (1 / 2 ^ 8) := mul_le_mul_of_nonneg_left hc.2 (by linarith)
    have : m * (1 / 2 ^ 8) ≤ 6 * (1 / 2 ^ 8) := mul_le_mul_of_nonneg_right hk6' (by norm_num)
    linarith
  have p0 : 1 ≤ m * c := by nlinarith
  have p2 : m * c ≤ 2 ^ 18 := by
    have : m * t ≤ 6 * 2 ^ 15 := mul_le_mul hk6' t2 (by linarith) (by norm_num)
    have : (6 : ℚ) * 2 ^ 15 + 6 / 2 ^ 8 ≤ 2 ^ 18 := by norm_num
    linarith
  have p3 := rnd_err15 (show |m * c| ≤ 2 ^ 18 by rw [abs_of_nonneg (by linarith)]; exact p2)
  rw [abs_le] at p3
  have p4 : rnd (m * c) ≤ m * t + 1 / 16 := by
    have : (6 : ℚ) / 2 ^ 8 + (2 ^ 18 / 2 ^ 24 + 1 / 2 ^ 150) ≤ 1 / 16 := by norm_num
    linarith [p3.2]
  have p5 : 1 ≤ rnd (m * c) := RoundOK.rnd.one_le p0
  have p6 : F32.round (rnd (m * c)) ≤ ⌊rnd (m * c) + 1 / 2⌋ := by
    unfold F32.round; rw [if_pos (by linarith)]
  have p7 := Int.floor_le (rnd (m * c) + 1 / 2)
  have p8 : 0 ≤ ⌊rnd (m * c) + 1 / 2⌋ := Int.floor_nonneg.2 (by linarith)
  have p9 : (F32.toUsize (F32.round (rnd (m * c))) : ℤ) ≤ ⌊rnd (m * c) + 1 / 2⌋ := by
    unfold F32.toUsize; omega
  have p10 : ((F32.toUsize (F32.round (rnd (m * c))) : ℤ) : ℚ) ≤ (⌊rnd (m * c) + 1 / 2⌋ : ℚ) := by exact_mod_cast p9
  push_cast at p10
  linarith

/-- The window of the general branch. -/
theorem genBound_reach (L : Lib) (r : ResamplingFunction) {inn out i p : ℕ} (h2 : inn ≤ 2 ^ 15) (hi : i < out)
    (ho2 : out ≤ 2 ^ 15) (hp : wStart rnd (filterOf rnd L r) inn out i ≤ p) (hp2 : p < wEnd rnd (filterOf rnd L r) inn out i) :
    Reaches r inn out i p := by
  have ho : 1 ≤ out := by omega
  obtain ⟨_, _, hk1, hk6⟩ := kernelWidth_filter L r
  obtain ⟨t1, t2⟩ := stretch_range r h2 ho
  have hc := wCenter_near h2 hi ho2
  have hk := wKernelSize_le L r h2 ho ho2
  have hc0 : 0 ≤ wCenter rnd inn out i := wCenter_nonneg RoundOK.rnd i
  have hcn : wCenter rnd inn out i ≤ 2 ^ 15 := by
    unfold wCenter
    rw [RoundOK.rnd.nat (n := inn) (by omega)]
    exact le_trans (min_le_right _ _) (by exact_mod_cast h2)
  unfold wStart at hp
  unfold wEnd at hp2
  have hk18 : (kernelWidth r : ℚ) * stretch r inn out ≤ 6 * 2 ^ 15 :=
    mul_le_mul (by exact_mod_cast hk6) t2 (by linarith) (by norm_num)
  have hks : wKernelSize rnd (filterOf rnd L r) inn out ≤ 2 ^ 18 := by
    have : (wKernelSize rnd (filterOf rnd L r) inn out : ℚ) ≤ ((2 ^ 18 : ℕ) : ℚ) := by push_cast; linarith
    exact_mod_cast this
  have hr2 : wRadius rnd (filterOf rnd L r) inn out = (wKernelSize rnd (filterOf rnd L r) inn out : ℚ) / 2 := by
    unfold wRadius
    rw [RoundOK.rnd.nat (by omega)]
    have := RoundOK.rnd.half (wKernelSize rnd (filterOf rnd L r) inn out : ℤ) (by rw [abs_of_nonneg (by omega)]; omega)
    push_cast at this; exact this
  rw [hr2] at hp hp2
  set ks := wKernelSize rnd (filterOf rnd L r) inn out
  set c := wCenter rnd inn out i
  have hks' : (ks : ℚ) ≤ 2 ^ 18 := by exact_mod_cast hks
  have hks0 : (0 : ℚ) ≤ ks := by positivity
  have f1 := rnd_err15 (show |c - (ks : ℚ) / 2| ≤ 2 ^ 18 by rw [abs_le]; constructor <;> linarith)
  have f2 := rnd_err15 (show |c + (ks : ℚ) / 2| ≤ 2 ^ 18 by rw [abs_le]; constructor <;> linarith)
  have fe : (2 : ℚ) ^ 18 / 2 ^ 24 + 1 / 2 ^ 150 ≤ 1 / 32 := by norm_num
  rw [abs_le] at f1 f2 hc
  unfold Reaches
  rw [abs_le]
  constructor
  · have g1 : ⌊rnd (c - (ks : ℚ) / 2)⌋ ≤ (p : ℤ) := by unfold F32.toUsize at hp; omega
    have g2 := Int.lt_floor_add_one (rnd (c - (ks : ℚ) / 2))
    have g3 : (⌊rnd (c - (ks : ℚ) / 2)⌋ : ℚ) ≤ p := by exact_mod_cast g1
    linarith [f1.1, hc.1, hc.2, (by norm_num : (1 : ℚ) / 2 ^ 7 ≤ 1 / 64)]
  · have g0 : ∀ a b d : ℚ, ⌊min (min (a) b) d⌋ ≤ ⌊a⌋ := fun a b d =>
      Int.floor_mono (le_trans (min_le_left _ _) (min_le_left _ _))
    have g1 : (p : ℤ) + 1 ≤ ⌈rnd (c + (ks : ℚ) / 2)⌉ := by
      have := g0 (⌈rnd (c + (ks : ℚ) / 2)⌉ : ℚ)
        (rnd (rnd ((F32.toUsize (max ⌊rnd (c - (ks : ℚ) / 2)⌋ 0) : ℕ) : ℚ) + rnd (ks : ℚ))) (rnd (inn : ℚ))
      rw [Int.floor_intCast] at this
      unfold wStart at hp2
      rw [hr2] at hp2
      generalize ⌊min (min (⌈rnd (c + (ks : ℚ) / 2)⌉ : ℚ)
        (rnd (rnd ((F32.toUsize (max ⌊rnd (c - (ks : ℚ) / 2)⌋ 0) : ℕ) : ℚ) + rnd (ks : ℚ)))) (rnd (inn : ℚ))⌋ = z at this hp2
      unfold F32.toUsize at hp2
      omega
    have g2 := Int.ceil_lt_add_one (rnd (c + (ks : ℚ) / 2))
    have g3 : ((p : ℚ) + 1) ≤ (⌈rnd (c + (ks : ℚ) / 2)⌉ : ℚ) := by exact_mod_cast g1
    linarith [f2.2, hc.1, hc.2, (by norm_num : (1 : ℚ) / 2 ^ 7 ≤ 1 / 64)]

/-- The window of `Area` when enlarging. -/
theorem areaBound_reach {inn out i p : ℕ} (h2 : inn ≤ 2 ^ 15) (hi : i < out) (ho2 : out ≤ 2 ^ 15)
    (hs : wScale rnd inn out < 1) (hp : areaStart rnd inn out i ≤ p) (hp2 : p < areaEnd rnd inn out i) :
    Reaches .area inn out i p := by
  have ho : 1 ≤ out := by omega
  have t1 := (stretch_range .area h2 ho).1
  have s1 := wScale_near h2 ho ho2
  have s0 : 0 ≤ wScale rnd inn out := wScale_nonneg RoundOK.rnd
  have hc : |(i : ℚ) * wScale rnd inn out - i * (inn / out)| ≤ 1 / 64 := by
    have : (i : ℚ) * wScale rnd inn out - i * (inn / out) = i * (wScale rnd inn out - inn / out) := by ring
    rw [this, abs_mul, abs_of_nonneg (by positivity : (0 : ℚ) ≤ i)]
    have hiq : (i : ℚ) ≤ 2 ^ 15 := by
      have : i ≤ 2 ^ 15 := by omega
      exact_mod_cast this
    have a := mul_le_mul_of_nonneg_left s1 (by positivity : (0 : ℚ) ≤ i)
    have b : (i : ℚ) * ((inn : ℚ) / out) ≤ 2 ^ 15 := by
      rw [← mul_div_assoc, div_le_iff₀ (by exact_mod_cast ho), mul_comm]
      exact mul_le_mul (by exact_mod_cast h2) (by exact_mod_cast hi.le) (by positivity) (by norm_num)
    have e : (i : ℚ) * ((inn : ℚ) / out / 2 ^ 24 + 1 / 2 ^ 150) = (i : ℚ) * ((inn : ℚ) / out) / 2 ^ 24 + i / 2 ^ 150 := by ring
    rw [e] at a
    have c : (i : ℚ) * ((inn : ℚ) / out) / 2 ^ 24 ≤ 2 ^ 15 / 2 ^ 24 := by gcongr
    have d : (i : ℚ) / 2 ^ 150 ≤ 2 ^ 15 / 2 ^ 150 := by gcongr
    refine le_trans a (le_trans (add_le_add c d) (by norm_num))
  have f1 := rnd_err15 (show |(i : ℚ) * wScale rnd inn out| ≤ 2 ^ 15 by
    have hiq : (i : ℚ) ≤ 2 ^ 15 := by
      have : i ≤ 2 ^ 15 := by omega
      exact_mod_cast this
    rw [abs_of_nonneg (by positivity)]
    nlinarith [(by positivity : (0 : ℚ) ≤ i)])
  have fe : (2 : ℚ) ^ 15 / 2 ^ 24 + 1 / 2 ^ 150 ≤ 1 / 64 := by norm_num
  have hsx : areaSx rnd inn out i = ⌊rnd ((i : ℚ) * wScale rnd inn out)⌋ := by
    unfold areaSx; rw [RoundOK.rnd.nat (n := i) (by omega)]
  have x0 := areaSx_nonneg RoundOK.rnd inn out i
  have x1 := Int.floor_le (rnd ((i : ℚ) * wScale rnd inn out))
  have x2 := Int.lt_floor_add_one (rnd ((i : ℚ) * wScale rnd inn out))
  rw [← hsx] at x1 x2
  have x3 : areaSx rnd inn out i ≤ 2 ^ 15 + 1 := by
    have : ((areaSx rnd inn out i : ℤ) : ℚ) ≤ ((2 ^ 15 + 1 : ℤ) : ℚ) := by
      have b : (i : ℚ) * wScale rnd inn out ≤ 2 ^ 15 := by
        have hiq : (i : ℚ) ≤ 2 ^ 15 := by
          have : i ≤ 2 ^ 15 := by omega
          exact_mod_cast this
        nlinarith [(by positivity : (0 : ℚ) ≤ i)]
      rw [abs_le] at f1
      push_cast
      linarith [f1.2]
    exact_mod_cast this
  have hs1 : (inn : ℚ) / out ≤ 1 + 1 / 64 := by
    rw [abs_le] at s1
    have s2 := ratio_le h2 ho
    have c : (inn : ℚ) / out / 2 ^ 24 ≤ 2 ^ 15 / 2 ^ 24 := by gcongr
    have : (2 : ℚ) ^ 15 / 2 ^ 24 + 1 / 2 ^ 150 ≤ 1 / 64 := by norm_num
    linarith [s1.1]
  have hs2 : (0 : ℚ) ≤ (inn : ℚ) / out := by positivity
  have g1 : areaSx rnd inn out i ≤ (p : ℤ) := by unfold areaStart F32.toUsize at hp; omega
  have g2 : (p : ℤ) + 1 ≤ areaSx rnd inn out i + 2 := by
    obtain ⟨n, hn⟩ := Int.eq_ofNat_of_zero_le x0
    unfold areaEnd at hp2
    have e : rnd ((areaSx rnd inn out i : ℚ) + 2) = areaSx rnd inn out i + 2 := by
      rw [hn]
      have := RoundOK.rnd.nat (n := n + 2) (by omega)
      push_cast at this ⊢; exact this
    rw [e] at hp2
    have g0 : ∀ a b d : ℚ, ⌊min (min (a) b) d⌋ ≤ ⌊a⌋ := fun a b d =>
      Int.floor_mono (le_trans (min_le_left _ _) (min_le_left _ _))
    have := g0 ((⌈(areaSx rnd inn out i : ℚ) + 2⌉ : ℤ) : ℚ) (rnd (rnd (areaStart rnd inn out i : ℚ) + 2)) (rnd (inn : ℚ))
    rw [Int.floor_intCast] at this
    have e2 : ⌈(areaSx rnd inn out i : ℚ) + 2⌉ = areaSx rnd inn out i + 2 := by
      rw [show (areaSx rnd inn out i : ℚ) + 2 = ((areaSx rnd inn out i + 2 : ℤ) : ℚ) by push_cast; ring, Int.ceil_intCast]
    rw [e2] at this hp2
    unfold F32.toUsize at hp2
    omega
  have g1' : ((areaSx rnd inn out i : ℤ) : ℚ) ≤ p := by exact_mod_cast g1
  have g2' : (p : ℚ) + 1 ≤ (areaSx rnd inn out i : ℚ) + 2 := by exact_mod_cast g2
  rw [abs_le] at f1 hc
  unfold Reaches
  have hk : (kernelWidth .area : ℚ) = 2 := rfl
  rw [hk, abs_le]
  have hcen : centre inn out i = i * (inn / out) + inn / out / 2 := by unfold centre; ring
  rw [hcen]
  constructor <;> linarith [f1.1, f1.2, hc.1, hc.2]

/-- **C273, windows.** Every pixel of a window is at most half the stretched kernel, plus one pixel, from the centre
of the output pixel: all filters, enlarging and reducing. -/
theorem C273_window_reach {L : Lib} {r : ResamplingFunction} {inn out i p : ℕ} {q : FilterWeights ℤ}
    (h1 : 1 ≤ inn) (h2 : inn ≤ 2 ^ 15) (ho2 : out ≤ 2 ^ 15) (hq : IsTable L r inn out q) (hi : i < out)
    (hp : (q.bound i).start ≤ p ∧ p < (q.bound i).start + (q.bound i).size) : Reaches r inn out i p := by
  obtain ⟨fw, e, rfl⟩ := hq
  obtain ⟨fw', e', v, t⟩ := generateWeights_spec RoundOK.rnd (filterOf_ok L r) (out := out) h1 (by omega : inn ≤ 2 ^ 23)
    (fun hA i hi => areaSx_rnd h1 (by omega) (by omega) hi)
  unfold tableOf at e
  rw [e'] at e
  obtain rfl := Option.some.inj e
  change (fw'.bound i).start ≤ p ∧ p < (fw'.bound i).start + (fw'.bound i).size at hp
  rcases t with ⟨_, t⟩ | ⟨⟨a1, a2⟩, t⟩
  · rw [t.bound hi] at hp
    simp only [genBound] at hp
    exact genBound_reach L r h2 hi ho2 hp.1 (by omega)
  · obtain rfl := filterOf_area L r a1
    rw [t.bound hi] at hp
    simp only [areaBound] at hp
    exact areaBound_reach h2 hi ho2 a2 hp.1 (by omega)

/-- **C273, enlargements.** When the picture is not reduced in a direction, an output pixel uses at most as many
source pixels of that direction as the filter's kernel is wide. -/
theorem C273_window_size {L : Lib} {r : ResamplingFunction} {inn out i : ℕ} {q : FilterWeights ℤ}
    (h1 : 1 ≤ inn) (h2 : inn ≤ out) (ho2 : out ≤ 2 ^ 22) (hq : IsTable L r inn out q) (hi : i < out) :
    (q.bound i).size ≤ kernelWidth r := by
  obtain ⟨hm, _, _, hk6⟩ := kernelWidth_filter L r
  obtain ⟨fw, e, rfl⟩ := hq
  obtain ⟨fw', e', v, t⟩ := generateWeights_spec RoundOK.rnd (filterOf_ok L r) (out := out) h1 (by omega : inn ≤ 2 ^ 23)
    (fun hA i hi => areaSx_rnd h1 (by omega) (by omega) hi)
  unfold tableOf at e
  rw [e'] at e
  obtain rfl := Option.some.inj e
  change (fw'.bound i).size ≤ _
  have hv := v.size_le i hi
  rcases t with ⟨_, t⟩ | ⟨⟨a1, _⟩, t⟩
  · rw [t.bound hi]
    simp only [genBound]
    obtain ⟨_, _, w⟩ := window_ok RoundOK.rnd (filterOf_ok L r) h1 (by omega : inn ≤ 2 ^ 23) (out := out) i
    refine le_trans w ?_
    have hcut : wCutoff rnd (filterOf rnd L r) inn out = 1 := by
      unfold wCutoff
      split_ifs
      · refine max_eq_right ?_
        unfold wScale
        rw [RoundOK.rnd.nat (n := inn) (by omega), RoundOK.rnd.nat (n := out) (by omega)]
        have := RoundOK.rnd.mono (show (inn : ℚ) / out ≤ ((1 : ℕ) : ℚ) by
          rw [div_le_iff₀ (by exact_mod_cast (by omega : 0 < out))]
          push_cast; rw [one_mul]; exact_mod_cast h2)
        rw [RoundOK.rnd.nat (by norm_num)] at this
        simpa using this
      · rfl
    unfold wKernelSize
    rw [hcut, hm, mul_one, RoundOK.rnd.nat (by omega)]
    have := round_int (kernelWidth r : ℤ) (by positivity)
    rw [Int.cast_natCast] at this
    rw [this]; unfold F32.toUsize; omega
  · obtain rfl := filterOf_area L r a1
    have := t.aligned
    rw [this] at hv
    exact hv

/-- Source pixel `(y', x')` can matter to output pixel `(y, x)` of a resize. -/
def Matters (r : ResamplingFunction) {S : Type} (store into : Image S) (y x y' x' : ℕ) : Prop :=
  (if store.height = into.height then y' = y else Reaches r store.height into.height y y') ∧
    (if store.width = into.width then x' = x else Reaches r store.width into.width x x')

/-- Sizes for which the reach is computed. -/
structure Sizes15 {S : Type} (store into : Image S) : Prop where
  store_width : store.width ≤ 2 ^ 15
  store_height : store.height ≤ 2 ^ 15
  into_width : into.width ≤ 2 ^ 15
  into_height : into.height ≤ 2 ^ 15

theorem matters_of_windows {L : Lib} {r : ResamplingFunction} {S : Type} {store into : Image S} {qv qh : FilterWeights ℤ}
    {y x y' x' : ℕ} (hs : Sizes15 store into) (h1 : 1 ≤ store.width) (h1' : 1 ≤ store.height)
    (tv : IsTable L r store.height into.height qv) (th : IsTable L r store.width into.width qh)
    (hy : y < into.height) (hx : x < into.width)
    (h2 : if store.height = into.height then y' = y else (qv.bound y).start ≤ y' ∧ y' < (qv.bound y).start + (qv.bound y).size)
    (h3 : if store.width = into.width then x' = x else (qh.bound x).start ≤ x' ∧ x' < (qh.bound x).start + (qh.bound x).size) :
    Matters r store into y x y' x' := by
  constructor
  · split_ifs at h2 ⊢ with e
    · exact h2
    · exact C273_window_reach h1' hs.store_height hs.into_height tv hy h2
  · split_ifs at h3 ⊢ with e
    · exact h3
    · exact C273_window_reach h1 hs.store_width hs.into_width th hx h3

/-- **C273, 8-bit pictures, portable code.** Two sources that agree on the pixels near the place of an output pixel
give the same output pixel. -/
theorem C273_reach_u8 {W N : ℕ} {L : Lib} {r : ResamplingFunction} {store store' into out out' : Image ℕ} {y x : ℕ}
    (h : Accepted W N L r store into) (h' : Accepted W N L r store' into) (hs : Sizes15 store into)
    (hsz : store.width = store'.width ∧ store.height = store'.height) (hy : y < into.height) (hx : x < into.width)
    (hp : ∀ y' x' c, Matters r store into y x y' x' → c < N →
      sample store.buffer (store.strideOf N) N y' x' c = sample store'.buffer (store'.strideOf N) N y' x' c)
    (ho : genericResize W N (formatU8 N) L r store into = some (.ok (), out))
    (ho' : genericResize W N (formatU8 N) L r store' into = some (.ok (), out')) :
    ∀ c, c < N → sample out.buffer (into.strideOf N) N y x c = sample out'.buffer (into.strideOf N) N y x c := by
  obtain ⟨_, _, c3, _⟩ := checkResize_ok.1 h.checked
  obtain ⟨fv, ev, _⟩ := table_exists L r (inn := store.height) (out := into.height) c3.2.1 h.small.2 (fun a => (h.area a).2)
  obtain ⟨fh, eh, _⟩ := table_exists L r (inn := store.width) (out := into.width) c3.1 h.small.1 (fun a => (h.area a).1)
  exact C26_locality h h' hsz ⟨fv, ev, rfl⟩ ⟨fh, eh, rfl⟩ hy hx
    (fun y' x' c h2 h3 hc => hp y' x' c (matters_of_windows hs c3.1 c3.2.1 ⟨fv, ev, rfl⟩ ⟨fh, eh, rfl⟩ hy hx h2 h3) hc) ho ho'

/-- **C273, 8-bit pictures, x86** (not RGB with AVX2 when the width changes: `C58_violated`). -/
theorem C273_reach_x86 {cpu : Cpu} {s : Workload} {W N : ℕ} {L : Lib} {r : ResamplingFunction}
    {store store' into out out' : Image ℕ} {y x : ℕ}
    (h : AcceptedX86 W N L r store into) (h' : AcceptedX86 W N L r store' into)
    (hc : CpuFits cpu s N store into) (hr : N ≠ 3 ∨ cpu.avx2 = false ∨ store.width = into.width) (hs : Sizes15 store into)
    (hsz : store.width = store'.width ∧ store.height = store'.height) (hy : y < into.height) (hx : x < into.width)
    (hp : ∀ y' x' c, Matters r store into y x y' x' → c < N →
      sample store.buffer (store.strideOf N) N y' x' c = sample store'.buffer (store'.strideOf N) N y' x' c)
    (ho : genericResize W N (formatX86 cpu s N) L r store into = some (.ok (), out))
    (ho' : genericResize W N (formatX86 cpu s N) L r store' into = some (.ok (), out')) :
    ∀ c, c < N → sample out.buffer (into.strideOf N) N y x c = sample out'.buffer (into.strideOf N) N y x c := by
  obtain ⟨_, _, c3, _⟩ := checkResize_ok.1 h.call.checked
  obtain ⟨fv, ev, _⟩ := table_exists L r (inn := store.height) (out := into.height) c3.2.1 h.call.small.2 (fun a => (h.call.area a).2)
  obtain ⟨fh, eh, _⟩ := table_exists L r (inn := store.width) (out := into.width) c3.1 h.call.small.1 (fun a => (h.call.area a).1)
  exact C58_locality_partial h h' hc hr hsz ⟨fv, ev, rfl⟩ ⟨fh, eh, rfl⟩ hy hx
    (fun y' x' c h2 h3 hc => hp y' x' c (matters_of_windows hs c3.1 c3.2.1 ⟨fv, ev, rfl⟩ ⟨fh, eh, rfl⟩ hy hx h2 h3) hc) ho ho'

/-- **C273, 8-bit pictures, AArch64.** -/
theorem C273_reach_neon {rdm : Bool} {s : Workload} {W N : ℕ} {L : Lib} {r : ResamplingFunction}
    {store store' into out out' : Image ℕ} {y x : ℕ}
    (h : AcceptedX86 W N L r store into) (h' : AcceptedX86 W N L r store' into)
    (h16 : Full32 rdm s ∨ BothTables L r store into NoOverflow16) (hs : Sizes15 store into)
    (hsz : store.width = store'.width ∧ store.height = store'.height) (hy : y < into.height) (hx : x < into.width)
    (hp : ∀ y' x' c, Matters r store into y x y' x' → c < N →
      sample store.buffer (store.strideOf N) N y' x' c = sample store'.buffer (store'.strideOf N) N y' x' c)
    (ho : genericResize W N (formatNeon rdm s N) L r store into = some (.ok (), out))
    (ho' : genericResize W N (formatNeon rdm s N) L r store' into = some (.ok (), out')) :
    ∀ c, c < N → sample out.buffer (into.strideOf N) N y x c = sample out'.buffer (into.strideOf N) N y x c := by
  obtain ⟨_, _, c3, _⟩ := checkResize_ok.1 h.call.checked
  obtain ⟨fv, ev, _⟩ := table_exists L r (inn := store.height) (out := into.height) c3.2.1 h.call.small.2 (fun a => (h.call.area a).2)
  obtain ⟨fh, eh, _⟩ := table_exists L r (inn := store.width) (out := into.width) c3.1 h.call.small.1 (fun a => (h.call.area a).1)
  exact C146_neon_locality h h' h16 hsz ⟨fv, ev, rfl⟩ ⟨fh, eh, rfl⟩ hy hx
    (fun y' x' c h2 h3 hc => hp y' x' c (matters_of_windows hs c3.1 c3.2.1 ⟨fv, ev, rfl⟩ ⟨fh, eh, rfl⟩ hy hx h2 h3) hc) ho ho'

/-- **C273, f32 pictures, x86 and portable code.** Also NaN and infinities elsewhere do not matter. -/
theorem C273_reach_f32 {A : Type} {W N : ℕ} {L : Lib} {r : ResamplingFunction} {store store' into into' : Image A}
    (h : AcceptedF W N r store into) (h' : AcceptedF W N r store' into') (cpu : Cpu) (fma fused : Bool) (o : VecOps A)
    (hs : Sizes15 store into) (hsz : store'.width = store.width ∧ store'.height = store.height)
    (hdz : into'.width = into.width ∧ into'.height = into.height)
    {y x c : ℕ} (hy : y < into.height) (hx : x < into.width) (hc : c < N)
    (hp : ∀ y' x', Matters r store into y x y' x' →
      sample store.buffer (store.strideOf N) N y' x' c = sample store'.buffer (store'.strideOf N) N y' x' c) :
    ∃ out out', genericResize W N (formatF32X86 cpu fma fused o N) L r store into = some (.ok (), out) ∧
      genericResize W N (formatF32X86 cpu fma fused o N) L r store' into' = some (.ok (), out') ∧
      sample out.buffer (into.strideOf N) N y x c = sample out'.buffer (into'.strideOf N) N y x c := by
  obtain ⟨_, _, c3, _⟩ := checkResize_ok.1 h.checked
  exact C94_f32_locality h h' cpu fma fused o hsz hdz hy hx hc fun vf hf j k ev eh h2 h3 =>
    hp j k (matters_of_windows hs c3.1 c3.2.1 ⟨vf, ev, rfl⟩ ⟨hf, eh, rfl⟩ hy hx h2 h3)

/-- **C273, f32 pictures, AArch64.** -/
theorem C273_reach_f32_neon {A : Type} {W N : ℕ} {L : Lib} {r : ResamplingFunction} {store store' into into' : Image A}
    (h : AcceptedF W N r store into) (h' : AcceptedF W N r store' into')
    (h8 : NeonSafe N store into) (h8' : NeonSafe N store' into') (o : VecOps A)
    (hs : Sizes15 store into) (hsz : store'.width = store.width ∧ store'.height = store.height)
    (hdz : into'.width = into.width ∧ into'.height = into.height)
    {y x c : ℕ} (hy : y < into.height) (hx : x < into.width) (hc : c < N)
    (hp : ∀ y' x', Matters r store into y x y' x' →
      sample store.buffer (store.strideOf N) N y' x' c = sample store'.buffer (store'.strideOf N) N y' x' c) :
    ∃ out out', genericResize W N (formatF32Neon o N) L r store into = some (.ok (), out) ∧
      genericResize W N (formatF32Neon o N) L r store' into' = some (.ok (), out') ∧
      sample out.buffer (into.strideOf N) N y x c = sample out'.buffer (into'.strideOf N) N y x c := by
  obtain ⟨_, _, c3, _⟩ := checkResize_ok.1 h.checked
  exact C174_f32_neon_locality h h' h8 h8' o hsz hdz hy hx hc fun vf hf j k ev eh h2 h3 =>
    hp j k (matters_of_windows hs c3.1 c3.2.1 ⟨vf, ev, rfl⟩ ⟨hf, eh, rfl⟩ hy hx h2 h3)

/-! The hypotheses are met, and the reach is not the whole picture. -/

example : ∃ q, IsTable demoLib .catmullRom 100 300 q ∧ (q.bound 150).size ≤ 2 := by
  obtain ⟨fw, e, _⟩ := table_exists demoLib .catmullRom (inn := 100) (out := 300) (by norm_num) (by norm_num) (by simp)
  exact ⟨_, ⟨fw, e, rfl⟩, C273_window_size (r := .catmullRom) (by norm_num) (by norm_num) (by norm_num) ⟨fw, e, rfl⟩ (by norm_num)⟩

example : ¬ Reaches .lanczos3 1000 500 250 490 ∧ Reaches .lanczos3 1000 500 250 501 := by
  have st : stretch .lanczos3 1000 500 = 2 := by
    unfold stretch; rw [if_neg (by decide)]; norm_num
  have : kernelWidth .lanczos3 = 3 := rfl
  unfold Reaches centre
  rw [this, st]
  constructor
  · rw [not_le, lt_abs]; right; norm_num
  · rw [abs_le]; norm_num

example : ∃ (store' out out' : Image ℕ), AcceptedX86 (2 ^ 64) 4 demoLib .bilinear Demo.xsrc Demo.xdst ∧
    AcceptedX86 (2 ^ 64) 4 demoLib .bilinear store' Demo.xdst ∧ Sizes15 Demo.xsrc Demo.xdst ∧
    CpuFits ⟨true, true⟩ .preferSpeed 4 Demo.xsrc Demo.xdst ∧ store'.buffer ≠ Demo.xsrc.buffer ∧
    genericResize (2 ^ 64) 4 (formatX86 ⟨true, true⟩ .preferSpeed 4) demoLib .bilinear Demo.xsrc Demo.xdst =
      some (.ok (), out) ∧
    genericResize (2 ^ 64) 4 (formatX86 ⟨true, true⟩ .preferSpeed 4) demoLib .bilinear store' Demo.xdst =
      some (.ok (), out') := by
  have hc : CpuFits ⟨true, true⟩ .preferSpeed 4 Demo.xsrc Demo.xdst := Or.inr (Or.inr (Or.inl rfl))
  have hs : AcceptedCall (2 ^ 64) 4 .bilinear { Demo.xsrc with buffer := List.replicate 48 3 } Demo.xdst := by
    constructor <;> decide +kernel
  obtain ⟨out, h1, _⟩ := C52_no_oob (L := demoLib) Demo.xcall hc
  obtain ⟨out', h2, _⟩ := C52_no_oob (L := demoLib) hs hc
  refine ⟨_, out, out', Demo.xaccepted, ?_, ⟨by decide, by decide, by decide, by decide⟩, hc, by decide +kernel, h1, h2⟩
  exact ⟨hs, by decide +kernel, Demo.xaccepted.noOverflow⟩

end PicScale
