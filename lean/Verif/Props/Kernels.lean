import Verif.Lemmas.KernelMoments
import Verif.Spec
import Verif.SpecTable

/-!
Property theorems C255 – C256: what the interpolation kernels are, as functions in exact arithmetic.
-/

namespace PicScale

open Spec Kernel

/-- **C255**, degree 0: with their full radius these kernels add up to one at every position, so they keep flat signals. -/
theorem C255_flat_partial (L : Lib) {r : ResamplingFunction} {R : ℕ} (h : (r, R) ∈ [(.bilinear, 1), (.cubic, 2),
    (.mitchellNetravalli, 2), (.catmullRom, 2), (.hermite, 2), (.bSpline, 2), (.bicubic, 2), (.quadric, 2),
    (.robidoux, 2), (.robidouxSharp, 2), (.ewaRobidoux, 2), (.ewaRobidouxSharp, 2), (.ewaQuadric, 2), (.spline16, 2),
    (.spline36, 3), (.spline64, 4), (.lagrange2, 2), (.lagrange3, 3)]) :
    Reproduces (filterOf id L r).kernel R 0 := by
  have low : ∀ {k : ℚ → ℚ} {R d : ℕ}, Moments k R d → Moments k R 0 :=
    fun hm t h0 h1 j hj => hm t h0 h1 j (by omega)
  simp only [List.mem_cons, Prod.mk.injEq, List.not_mem_nil, or_false] at h
  rcases h with ⟨rfl, rfl⟩ | ⟨rfl, rfl⟩ | ⟨rfl, rfl⟩ | ⟨rfl, rfl⟩ | ⟨rfl, rfl⟩ | ⟨rfl, rfl⟩ | ⟨rfl, rfl⟩ | ⟨rfl, rfl⟩ |
    ⟨rfl, rfl⟩ | ⟨rfl, rfl⟩ | ⟨rfl, rfl⟩ | ⟨rfl, rfl⟩ | ⟨rfl, rfl⟩ | ⟨rfl, rfl⟩ | ⟨rfl, rfl⟩ | ⟨rfl, rfl⟩ | ⟨rfl, rfl⟩ |
    ⟨rfl, rfl⟩
  · exact reproduces_of_moments (low moments_bilinear)
  · exact reproduces_of_moments (low moments_cubic)
  · exact reproduces_of_moments (moments_bcSpline0 _ _)
  · exact reproduces_of_moments (moments_bcSpline0 _ _)
  · exact reproduces_of_moments (moments_bcSpline0 _ _)
  · exact reproduces_of_moments (moments_bcSpline0 _ _)
  · exact reproduces_of_moments (low moments_bicubic)
  · exact reproduces_of_moments (low moments_quadric)
  · exact reproduces_of_moments (moments_bcSpline0 _ _)
  · exact reproduces_of_moments (moments_bcSpline0 _ _)
  · exact reproduces_of_moments (moments_bcSpline0 _ _)
  · exact reproduces_of_moments (moments_bcSpline0 _ _)
  · exact reproduces_of_moments (low moments_quadric)
  · exact reproduces_of_moments (low moments_spline16)
  · exact reproduces_of_moments (low moments_spline36)
  · exact reproduces_of_moments (low moments_spline64)
  · exact reproduces_of_moments (low moments_lagrange2)
  · exact reproduces_of_moments (low moments_lagrange3)

/-- **C255**, degree 1: with their full radius these kernels keep linear gradients. -/
theorem C255_linear_partial (L : Lib) {r : ResamplingFunction} {R : ℕ} (h : (r, R) ∈ [(.bilinear, 1), (.cubic, 2),
    (.mitchellNetravalli, 2), (.catmullRom, 2), (.bSpline, 2), (.bicubic, 2), (.quadric, 2), (.ewaQuadric, 2),
    (.spline16, 2), (.spline36, 3), (.spline64, 4), (.lagrange2, 2), (.lagrange3, 3)]) :
    Reproduces (filterOf id L r).kernel R 1 := by
  have low : ∀ {k : ℚ → ℚ} {R d : ℕ}, 1 ≤ d → Moments k R d → Moments k R 1 :=
    fun hd hm t h0 h1 j hj => hm t h0 h1 j (by omega)
  simp only [List.mem_cons, Prod.mk.injEq, List.not_mem_nil, or_false] at h
  rcases h with ⟨rfl, rfl⟩ | ⟨rfl, rfl⟩ | ⟨rfl, rfl⟩ | ⟨rfl, rfl⟩ | ⟨rfl, rfl⟩ | ⟨rfl, rfl⟩ | ⟨rfl, rfl⟩ | ⟨rfl, rfl⟩ |
    ⟨rfl, rfl⟩ | ⟨rfl, rfl⟩ | ⟨rfl, rfl⟩ | ⟨rfl, rfl⟩ | ⟨rfl, rfl⟩
  · exact reproduces_of_moments moments_bilinear
  · exact reproduces_of_moments moments_cubic
  · exact reproduces_of_moments (moments_bcSpline1 (by norm_num))
  · exact reproduces_of_moments (moments_bcSpline1 (by norm_num))
  · exact reproduces_of_moments (moments_bcSpline1 (by norm_num))
  · exact reproduces_of_moments (low (by norm_num) moments_bicubic)
  · exact reproduces_of_moments moments_quadric
  · exact reproduces_of_moments moments_quadric
  · exact reproduces_of_moments moments_spline16
  · exact reproduces_of_moments moments_spline36
  · exact reproduces_of_moments moments_spline64
  · exact reproduces_of_moments (low (by norm_num) moments_lagrange2)
  · exact reproduces_of_moments (low (by norm_num) moments_lagrange3)

/-- **C255**, degrees 2 and 3. -/
theorem C255_higher_partial (L : Lib) {r : ResamplingFunction} {R d : ℕ} (h : (r, R, d) ∈ [(.catmullRom, 2, 2),
    (.bicubic, 2, 2), (.lagrange2, 2, 3), (.lagrange3, 3, 3)]) :
    Reproduces (filterOf id L r).kernel R d := by
  simp only [List.mem_cons, Prod.mk.injEq, List.not_mem_nil, or_false] at h
  rcases h with ⟨rfl, rfl, rfl⟩ | ⟨rfl, rfl, rfl⟩ | ⟨rfl, rfl, rfl⟩ | ⟨rfl, rfl, rfl⟩
  · exact reproduces_of_moments moments_catmullRom
  · exact reproduces_of_moments moments_bicubic
  · exact reproduces_of_moments moments_lagrange2
  · exact reproduces_of_moments moments_lagrange3

/-- Interpolating `x^2` at `3/4` with the Catmull-Rom kernel, from samples at `-1, 0, 1, 2`. -/
example (L : Lib) : interpolate (filterOf id L .catmullRom).kernel 2 (fun n => (n : ℚ) ^ 2) (3 / 4) = 9 / 16 := by
  have := C255_higher_partial L (r := .catmullRom) (R := 2) (d := 2) (by simp) (Polynomial.X ^ 2)
    (by simp) (3 / 4)
  simp only [Polynomial.eval_pow, Polynomial.eval_X] at this
  rw [this]; norm_num

/-- **C255 is false of Bartlett**, whose kernel `2 x` on `[0, 1]` grows with the distance: with radius 1 a flat
signal of ones becomes 2. -/
theorem C255_bartlett_violated (L : Lib) : ¬ Reproduces (filterOf id L .bartlett).kernel 1 0 ∧
    ¬ Reproduces (filterOf id L .bartlett).kernel 2 0 := by
  have e : (filterOf id L .bartlett).kernel = bartlett id := rfl
  rw [e]
  constructor
  · intro h
    have := h 1 (by simp) (1 / 4)
    simp only [Polynomial.eval_one] at this
    revert this; decide +kernel
  · intro h
    have := h 1 (by simp) (1 / 4)
    simp only [Polynomial.eval_one] at this
    revert this; decide +kernel

/-- **C255, degree 1, is false of Hermite** with its full radius. -/
theorem C255_hermite_violated (L : Lib) : ¬ Reproduces (filterOf id L .hermite).kernel 2 1 := by
  have e : (filterOf id L .hermite).kernel = hermiteSpline id := rfl
  rw [e]
  intro h
  have := h Polynomial.X (by simp) (1 / 4)
  simp only [Polynomial.eval_X] at this
  revert this; decide +kernel

/-- **C255 at the radius the library uses** for enlargements, half of `min_kernel_size`: these kernels, which add up to
one with their full radius, do not add up to one there. -/
theorem C255_truncated_violated (L : Lib) {r : ResamplingFunction} {R : ℕ} (h : (r, R) ∈ [(.cubic, 1),
    (.mitchellNetravalli, 1), (.catmullRom, 1), (.bSpline, 1), (.bicubic, 1), (.quadric, 1),
    (.spline16, 1), (.spline36, 2), (.spline64, 3), (.lagrange2, 1)]) :
    (filterOf id L r).minKernelSize = 2 * R ∧ ¬ Reproduces (filterOf id L r).kernel R 0 := by
  have key : ∀ {k : ℚ → ℚ} {R : ℕ}, interpolate k R (fun _ => 1) (1 / 4) ≠ 1 → ¬ Reproduces k R 0 := by
    intro k R hne hr
    have := hr 1 (by simp) (1 / 4)
    simp only [Polynomial.eval_one] at this
    exact hne this
  simp only [List.mem_cons, Prod.mk.injEq, List.not_mem_nil, or_false] at h
  rcases h with ⟨rfl, rfl⟩ | ⟨rfl, rfl⟩ | ⟨rfl, rfl⟩ | ⟨rfl, rfl⟩ | ⟨rfl, rfl⟩ | ⟨rfl, rfl⟩ | ⟨rfl, rfl⟩ | ⟨rfl, rfl⟩ |
    ⟨rfl, rfl⟩ | ⟨rfl, rfl⟩
  · exact ⟨by rw [show (filterOf id L .cubic).minKernelSize = 2 from rfl]; norm_num, key (k := cubicSpline id) (by decide +kernel)⟩
  · exact ⟨by rw [show (filterOf id L .mitchellNetravalli).minKernelSize = 2 from rfl]; norm_num, key (k := mitchellNetravalli id) (by decide +kernel)⟩
  · exact ⟨by rw [show (filterOf id L .catmullRom).minKernelSize = 2 from rfl]; norm_num, key (k := catmullRom id) (by decide +kernel)⟩
  · exact ⟨by rw [show (filterOf id L .bSpline).minKernelSize = 2 from rfl]; norm_num, key (k := bSpline id) (by decide +kernel)⟩
  · exact ⟨by rw [show (filterOf id L .bicubic).minKernelSize = 2 from rfl]; norm_num, key (k := bicubicSpline id) (by decide +kernel)⟩
  · exact ⟨by rw [show (filterOf id L .quadric).minKernelSize = 2 from rfl]; norm_num, key (k := quadric id) (by decide +kernel)⟩
  · exact ⟨by rw [show (filterOf id L .spline16).minKernelSize = 2 from rfl]; norm_num, key (k := spline16 id) (by decide +kernel)⟩
  · exact ⟨by rw [show (filterOf id L .spline36).minKernelSize = 4 from rfl]; norm_num, key (k := spline36 id) (by decide +kernel)⟩
  · exact ⟨by rw [show (filterOf id L .spline64).minKernelSize = 6 from rfl]; norm_num, key (k := spline64 id) (by decide +kernel)⟩
  · exact ⟨by rw [show (filterOf id L .lagrange2).minKernelSize = 2 from rfl]; norm_num, key (k := lagrange id 2) (by decide +kernel)⟩

/-- **C256**: at a source pixel's own position these kernels give that pixel, and no other, a weight. -/
theorem C256_interpolates_partial (L : Lib) {r : ResamplingFunction} {R : ℕ} (h : (r, R) ∈ [(.bilinear, 1),
    (.catmullRom, 2), (.hermite, 2), (.bicubic, 2), (.spline16, 2), (.spline36, 3), (.spline64, 4), (.lagrange2, 2),
    (.lagrange3, 3), (.welch, 2), (.hamming, 2), (.hanning, 2)]) :
    Interpolates (filterOf id L r).kernel R := by
  have key : ∀ {k : ℚ → ℚ} {R : ℕ}, 1 ≤ R → k 0 = 1 → (∀ n : ℕ, n < R → k ((n + 1 : ℕ) : ℚ) = 0) → Interpolates k R := by
    intro k R hR h0 h1
    refine interpolates_of hR h0 fun n a b => ?_
    have := h1 (n - 1) (by omega)
    rwa [Nat.sub_add_cancel a] at this
  simp only [List.mem_cons, Prod.mk.injEq, List.not_mem_nil, or_false] at h
  rcases h with ⟨rfl, rfl⟩ | ⟨rfl, rfl⟩ | ⟨rfl, rfl⟩ | ⟨rfl, rfl⟩ | ⟨rfl, rfl⟩ | ⟨rfl, rfl⟩ | ⟨rfl, rfl⟩ | ⟨rfl, rfl⟩ |
    ⟨rfl, rfl⟩ | ⟨rfl, rfl⟩ | ⟨rfl, rfl⟩ | ⟨rfl, rfl⟩
  · exact key (k := bilinear id) (by norm_num) (by decide +kernel) (by decide +kernel)
  · exact key (k := catmullRom id) (by norm_num) (by decide +kernel) (by decide +kernel)
  · exact key (k := hermiteSpline id) (by norm_num) (by decide +kernel) (by decide +kernel)
  · exact key (k := bicubicSpline id) (by norm_num) (by decide +kernel) (by decide +kernel)
  · exact key (k := spline16 id) (by norm_num) (by decide +kernel) (by decide +kernel)
  · exact key (k := spline36 id) (by norm_num) (by decide +kernel) (by decide +kernel)
  · exact key (k := spline64 id) (by norm_num) (by decide +kernel) (by decide +kernel)
  · exact key (k := lagrange id 2) (by norm_num) (by decide +kernel) (by decide +kernel)
  · exact key (k := lagrange id 3) (by norm_num) (by decide +kernel) (by decide +kernel)
  · exact key (k := welch id) (by norm_num) (by decide +kernel) (by decide +kernel)
  · refine key (k := hamming id L) (by norm_num) (by unfold hamming; simp) fun n _ => ?_
    unfold hamming
    simp only
    rw [abs_of_nonneg (by positivity), if_neg (by positivity), if_pos (by push_cast; linarith [Nat.cast_nonneg (α := ℚ) n])]
  · refine key (k := hanning id L) (by norm_num) (by unfold hanning; simp) fun n _ => ?_
    unfold hanning
    simp only
    rw [abs_of_nonneg (by positivity), if_neg (by positivity), if_pos (by push_cast; linarith [Nat.cast_nonneg (α := ℚ) n])]

example (L : Lib) : interpolate (filterOf id L .spline64).kernel 4 (fun n => 7 * (n : ℚ) ^ 2) (5 : ℤ) = 175 := by
  rw [C256_interpolates_partial L (r := .spline64) (by simp)]; norm_num

/-- **C256 is false of Bartlett and of the kernels of `Lanczos*Jinc`**, which give a pixel no weight at its own position. -/
theorem C256_violated (L : Lib) {r : ResamplingFunction} {R : ℕ} (h : (r, R) ∈ [(.bartlett, 1), (.lanczos2Jinc, 2),
    (.lanczos3Jinc, 3), (.lanczos4Jinc, 4), (.lanczos6Jinc, 6), (.ewaLanczos3Jinc, 3)]) :
    (filterOf id L r).kernel 0 = 0 ∧ ¬ Interpolates (filterOf id L r).kernel R := by
  have z : (filterOf id L r).kernel 0 = 0 := by
    simp only [List.mem_cons, Prod.mk.injEq, List.not_mem_nil, or_false] at h
    rcases h with ⟨rfl, rfl⟩ | ⟨rfl, rfl⟩ | ⟨rfl, rfl⟩ | ⟨rfl, rfl⟩ | ⟨rfl, rfl⟩ | ⟨rfl, rfl⟩ <;>
      simp [filterOf, Filter.new, bartlett, lanczosJinc]
  refine ⟨z, fun hi => ?_⟩
  have := hi (fun n => if n = 0 then 1 else 0) 0
  unfold interpolate at this
  simp only [if_pos] at this
  rw [Finset.sum_eq_zero] at this
  · norm_num at this
  · intro n _
    by_cases hn : n = 0
    · subst hn; simp [z]
    · simp [hn]

/-- **Two names of one kernel**: in exact arithmetic `Bicubic` is the Catmull-Rom kernel and `Cubic` the B-spline. -/
theorem C256_same_kernels (L : Lib) (x : ℚ) :
    (filterOf id L .bicubic).kernel x = (filterOf id L .catmullRom).kernel x ∧
      (filterOf id L .cubic).kernel x = (filterOf id L .bSpline).kernel x := by
  have e : ∀ y : ℚ, (if y < 0 then -y else y) = |y| := by
    intro y; split_ifs with h
    · rw [abs_of_neg h]
    · rw [abs_of_nonneg (by linarith)]
  constructor
  · show bicubicSpline id x = catmullRom id x
    unfold bicubicSpline catmullRom bcSpline
    simp only [id, e]
    rcases lt_trichotomy |x| 1 with h | h | h
    · rw [if_neg (by linarith), if_pos h.le, if_pos h]; ring
    · rw [h]; norm_num
    · by_cases h2 : |x| < 2
      · rw [if_neg (by linarith), if_neg (by linarith), if_neg (by linarith), if_pos h2]; ring
      · rw [if_pos (by linarith), if_neg (by linarith), if_neg h2]
  · show cubicSpline id x = bSpline id x
    unfold cubicSpline bSpline bcSpline
    simp only [id, e]
    split_ifs
    · ring
    · ring
    · rfl

end PicScale
