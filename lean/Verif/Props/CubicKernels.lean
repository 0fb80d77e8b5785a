import Verif.SpecCubics
import Verif.Lemmas.RingingKernels
import Verif.Props.Weights

/-!
Property theorem C264: in binary32 arithmetic the cubic filters are the members of the Mitchell-Netravali family they are
named after. The Robidoux filter is not.
-/

namespace PicScale

open F32 Spec

theorem mn_abs (B C x : ℚ) : mitchellNetravali B C x = mitchellNetravali B C |x| := by
  unfold mitchellNetravali; rw [abs_abs]

theorem mn_inner {B C x : ℚ} (h0 : 0 ≤ x) (h1 : x < 1) : mitchellNetravali B C x =
    ((12 - 9 * B - 6 * C) * (x * x * x) + (-18 + 12 * B + 6 * C) * (x * x) + (6 - 2 * B)) / 6 := by
  unfold mitchellNetravali
  rw [abs_of_nonneg h0, if_pos h1]
  ring

theorem mn_outer {B C x : ℚ} (h1 : 1 ≤ x) (h2 : x < 2) : mitchellNetravali B C x =
    ((-B - 6 * C) * (x * x * x) + (6 * B + 30 * C) * (x * x) + (-12 * B - 48 * C) * x + (8 * B + 24 * C)) / 6 := by
  unfold mitchellNetravali
  rw [abs_of_nonneg (by linarith), if_neg (by linarith), if_pos h2]
  ring

theorem mn_far {B C x : ℚ} (h2 : 2 ≤ x) : mitchellNetravali B C x = 0 := by
  unfold mitchellNetravali
  rw [abs_of_nonneg (by linarith), if_neg (by linarith), if_neg (by linarith)]

theorem lin_near {a b e y M : ℚ} (h : |a - b| ≤ e) (y0 : 0 ≤ y) (hM : y ≤ M) : |a * y - b * y| ≤ e * M := by
  rw [← sub_mul, abs_mul, abs_of_nonneg y0]
  exact mul_le_mul h hM y0 (le_trans (abs_nonneg _) h)

/-- Coefficients close to those of the family make a kernel close to it. -/
theorem bcSpline_near {b c A B D A' B' C' D' b0 c0 : ℚ} (h : BcCoefs b c A B D A' B' C' D')
    (hb : |A| ≤ 12 ∧ |B| ≤ 18 ∧ |D| ≤ 6 ∧ |A'| ≤ 4 ∧ |B'| ≤ 16 ∧ |C'| ≤ 32 ∧ |D'| ≤ 16)
    (hA : |A * (11184811 / 67108864) - (12 - 9 * b0 - 6 * c0) / 6| ≤ 1 / 2 ^ 18)
    (hB : |B * (11184811 / 67108864) - (-18 + 12 * b0 + 6 * c0) / 6| ≤ 1 / 2 ^ 18)
    (hD : |D * (11184811 / 67108864) - (6 - 2 * b0) / 6| ≤ 1 / 2 ^ 18)
    (hA' : |A' * (11184811 / 67108864) - (-b0 - 6 * c0) / 6| ≤ 1 / 2 ^ 18)
    (hB' : |B' * (11184811 / 67108864) - (6 * b0 + 30 * c0) / 6| ≤ 1 / 2 ^ 18)
    (hC' : |C' * (11184811 / 67108864) - (-12 * b0 - 48 * c0) / 6| ≤ 1 / 2 ^ 18)
    (hD' : |D' * (11184811 / 67108864) - (8 * b0 + 24 * c0) / 6| ≤ 1 / 2 ^ 18) (x : ℚ) :
    |Kernel.bcSpline rnd x b c - mitchellNetravali b0 c0 x| ≤ 1 / 2 ^ 11 := by
  have ev : Kernel.bcSpline rnd x b c = Kernel.bcSpline rnd |x| b c := by
    unfold Kernel.bcSpline
    have e : (if x < 0 then -x else x) = |x| := by
      split_ifs with h0
      · rw [abs_of_neg h0]
      · rw [abs_of_nonneg (not_lt.1 h0)]
    simp only [e, if_neg (not_lt.2 (abs_nonneg x))]
  rw [ev, mn_abs]
  have x0 := abs_nonneg x
  generalize |x| = x at *
  obtain ⟨b1, b2, b3, b4, b5, b6, b7⟩ := hb
  rw [bcSpline_eq h x0]
  rcases lt_or_ge x 1 with x1 | x1
  · rw [if_pos x1, mn_inner x0 x1]
    obtain ⟨v, hv⟩ := bc_inner b1 b2 b3 (show |x| ≤ 1 by rw [abs_of_nonneg x0]; exact x1.le)
    have hh := hv.1
    rw [bc_sixth] at hh ⊢
    have x3 : x * x * x ≤ 1 := mul_le_one₀ (mul_le_one₀ x1.le x0 x1.le) x0 x1.le
    have t1 := lin_near hA (mul_nonneg (mul_nonneg x0 x0) x0) x3
    have t2 := lin_near hB (mul_nonneg x0 x0) (mul_le_one₀ x1.le x0 x1.le)
    rw [abs_le] at *
    constructor <;> linarith [hh.1, hh.2, t1.1, t1.2, t2.1, t2.2, hD.1, hD.2]
  rcases lt_or_ge x 2 with x2 | x2
  · rw [if_neg (by linarith), if_pos x2, mn_outer x1 x2]
    obtain ⟨v, hv⟩ := bc_outer b4 b5 b6 b7 (show |x| ≤ 2 by rw [abs_of_nonneg x0]; exact x2.le)
    have hh := hv.1
    rw [bc_sixth] at hh ⊢
    have x22 : x * x ≤ 2 * 2 := mul_le_mul x2.le x2.le x0 (by norm_num)
    have x3 : x * x * x ≤ 2 * 2 * 2 := mul_le_mul x22 x2.le x0 (by norm_num)
    have t1 := lin_near hA' (mul_nonneg (mul_nonneg x0 x0) x0) x3
    have t2 := lin_near hB' (mul_nonneg x0 x0) x22
    have t3 := lin_near hC' x0 x2.le
    rw [abs_le] at *
    constructor <;> linarith [hh.1, hh.2, t1.1, t1.2, t2.1, t2.2, t3.1, t3.2, hD'.1, hD'.2]
  · rw [if_neg (by linarith), if_neg (by linarith), mn_far x2]
    norm_num

/-- The cubic filters and the parameters they are named after. -/
def cubicFamily : List (ResamplingFunction × ℚ × ℚ) :=
  [(.mitchellNetravalli, 1 / 3, 1 / 3), (.catmullRom, 0, 1 / 2), (.bicubic, 0, 1 / 2), (.hermite, 0, 0),
    (.bSpline, 1, 0), (.cubic, 1, 0)]

theorem cubicSpline_near (x : ℚ) : |Kernel.cubicSpline rnd x - mitchellNetravali 1 0 x| ≤ 1 / 2 ^ 11 := by
  have ev : Kernel.cubicSpline rnd x = Kernel.cubicSpline rnd |x| := by
    unfold Kernel.cubicSpline
    have e : (if x < 0 then -x else x) = |x| := by
      split_ifs with h0
      · rw [abs_of_neg h0]
      · rw [abs_of_nonneg (not_lt.1 h0)]
    simp only [e, if_neg (not_lt.2 (abs_nonneg x))]
  rw [ev, mn_abs]
  have x0 := abs_nonneg x
  generalize |x| = x at *
  rcases lt_or_ge x 1 with x1 | x1
  · rw [mn_inner x0 x1]
    obtain ⟨v, hv⟩ := cubic_inner x0 x1
    have hh := hv.1
    rw [bc_sixth] at hh
    have x2 : x * x ≤ 1 := mul_le_one₀ x1.le x0 x1.le
    have x3 : x * x * x ≤ 1 := mul_le_one₀ x2 x0 x1.le
    have y2 := mul_nonneg x0 x0
    have y3 := mul_nonneg y2 x0
    rw [show x * x * (3 * x - 6) = 3 * (x * x * x) - 6 * (x * x) by ring] at hh
    rw [abs_le] at *
    constructor <;> linarith [hh.1, hh.2]
  rcases lt_or_ge x 2 with x2 | x2
  · rw [mn_outer x1 x2]
    obtain ⟨v, hv⟩ := cubic_outer x1 x2
    have hh := hv.1
    rw [bc_sixth] at hh
    have x22 : x * x ≤ 2 * 2 := mul_le_mul x2.le x2.le x0 (by norm_num)
    have x3 : x * x * x ≤ 2 * 2 * 2 := mul_le_mul x22 x2.le x0 (by norm_num)
    have y2 := mul_nonneg x0 x0
    have y3 := mul_nonneg y2 x0
    rw [show x * (-12 + x * (6 - x)) = -12 * x + 6 * (x * x) - x * x * x by ring] at hh
    rw [abs_le] at *
    constructor <;> linarith [hh.1, hh.2]
  · rw [mn_far x2]
    unfold Kernel.cubicSpline
    simp only [if_neg (show ¬ x < 0 by linarith), if_neg (show ¬ x < 1 by linarith), if_neg (not_lt.2 x2)]
    norm_num

theorem bicubicSpline_near (x : ℚ) : |Kernel.bicubicSpline rnd x - mitchellNetravali 0 (1 / 2) x| ≤ 1 / 2 ^ 11 := by
  have ev : Kernel.bicubicSpline rnd x = Kernel.bicubicSpline rnd |x| := by
    unfold Kernel.bicubicSpline
    simp only [abs_abs]
  rw [ev, mn_abs]
  have x0 := abs_nonneg x
  generalize |x| = x at *
  rcases lt_or_ge x 1 with x1 | x1
  · rw [mn_inner x0 x1]
    obtain ⟨v, hv⟩ := bicubic_inner x0 x1.le
    have hh := hv.1
    rw [abs_le] at *
    constructor <;> linarith [hh.1, hh.2]
  rcases lt_or_ge x 2 with x2 | x2
  · rw [mn_outer x1 x2]
    rcases eq_or_lt_of_le x1 with e | x1
    · subst e
      have : Kernel.bicubicSpline rnd 1 = 0 := by decide +kernel
      rw [this]; norm_num
    · obtain ⟨v, hv⟩ := bicubic_outer x1 x2
      have hh := hv.1
      rw [abs_le] at *
      constructor <;> linarith [hh.1, hh.2]
  · rw [mn_far x2]
    unfold Kernel.bicubicSpline
    simp only [abs_of_nonneg x0, if_pos x2]
    norm_num

/-- **C264.** At every distance, each cubic filter, computed in binary32, is within `2^-11` of the member of the
Mitchell-Netravali family it is named after. -/
theorem C264_family (L : Lib) {r : ResamplingFunction} {B C : ℚ} (hr : (r, B, C) ∈ cubicFamily) (x : ℚ) :
    |(filterOf rnd L r).kernel x - mitchellNetravali B C x| ≤ 1 / 2 ^ 11 := by
  simp only [cubicFamily, List.mem_cons, List.not_mem_nil, or_false, Prod.mk.injEq] at hr
  rcases hr with ⟨rfl, rfl, rfl⟩ | ⟨rfl, rfl, rfl⟩ | ⟨rfl, rfl, rfl⟩ | ⟨rfl, rfl, rfl⟩ | ⟨rfl, rfl, rfl⟩ | ⟨rfl, rfl, rfl⟩
  · exact bcSpline_near coefs_mitchell (by norm_num [abs_of_pos, abs_of_neg]) (by norm_num [abs_le]) (by norm_num [abs_le])
      (by norm_num [abs_le]) (by norm_num [abs_le]) (by norm_num [abs_le]) (by norm_num [abs_le]) (by norm_num [abs_le]) x
  · exact bcSpline_near coefs_catmull (by norm_num [abs_of_pos, abs_of_neg]) (by norm_num [abs_le]) (by norm_num [abs_le])
      (by norm_num [abs_le]) (by norm_num [abs_le]) (by norm_num [abs_le]) (by norm_num [abs_le]) (by norm_num [abs_le]) x
  · exact bicubicSpline_near x
  · exact bcSpline_near coefs_hermite (by norm_num [abs_of_pos, abs_of_neg]) (by norm_num [abs_le]) (by norm_num [abs_le])
      (by norm_num [abs_le]) (by norm_num [abs_le]) (by norm_num [abs_le]) (by norm_num [abs_le]) (by norm_num [abs_le]) x
  · exact bcSpline_near coefs_bSpline (by norm_num [abs_of_pos, abs_of_neg]) (by norm_num [abs_le]) (by norm_num [abs_le])
      (by norm_num [abs_le]) (by norm_num [abs_le]) (by norm_num [abs_le]) (by norm_num [abs_le]) (by norm_num [abs_le]) x
  · exact cubicSpline_near x

/-- Example: Mitchell-Netravali at `3/2`; the member of the family is `-5/144` there. -/
example : |(filterOf rnd demoLib .mitchellNetravalli).kernel (3 / 2) - (-5 / 144)| ≤ 1 / 2 ^ 11 := by
  have h := C264_family demoLib (r := .mitchellNetravalli) (B := 1 / 3) (C := 1 / 3) (List.mem_cons_self) (3 / 2)
  have e : mitchellNetravali (1 / 3) (1 / 3) (3 / 2) = -5 / 144 := by
    rw [mn_outer (by norm_num) (by norm_num)]; norm_num
  rwa [e] at h

/-- **C264, Robidoux Sharp**, with the binary32 value of `√2`. -/
theorem C264_robidoux_sharp {L : Lib} (h : L.sqrt2 = 11863283 / 8388608) (x : ℚ) :
    |(filterOf rnd L .robidouxSharp).kernel x -
      mitchellNetravali (robidouxSharpParams L.sqrt2).1 (robidouxSharpParams L.sqrt2).2 x| ≤ 1 / 2 ^ 11 := by
  show |Kernel.robidouxSharp rnd L x - _| ≤ _
  unfold Kernel.robidouxSharp
  simp only [robidouxSharpParams, h]
  have co : BcCoefs (rnd (6 / rnd (13 + rnd (7 * (11863283 / 8388608))))) (rnd (7 / rnd (2 + rnd (12 * (11863283 / 8388608)))))
      (15577463 / 2097152) (-1656995 / 131072) (1435493 / 262144) (-5192487 / 2097152) (13255961 / 1048576)
      (-10934459 / 524288) (11483943 / 1048576) := by constructor <;> decide +kernel
  exact bcSpline_near co (by norm_num [abs_of_pos, abs_of_neg]) (by norm_num [abs_le]) (by norm_num [abs_le])
      (by norm_num [abs_le]) (by norm_num [abs_le]) (by norm_num [abs_le]) (by norm_num [abs_le]) (by norm_num [abs_le]) x

/-- A library with that constant. -/
def Demo.sqrt2Lib : Lib := { demoLib with sqrt2 := 11863283 / 8388608 }

example : |(filterOf rnd Demo.sqrt2Lib .robidouxSharp).kernel 1 -
    mitchellNetravali (robidouxSharpParams Demo.sqrt2Lib.sqrt2).1 (robidouxSharpParams Demo.sqrt2Lib.sqrt2).2 1| ≤ 1 / 2 ^ 11 :=
  C264_robidoux_sharp rfl 1

/-- **C264 fails for Robidoux**: the second parameter is `13 / (58 + 216 √2)` in the code, not `113 / (58 + 216 √2)`;
at distance `5/4` the kernel is off by more than `1/30`. -/
theorem C264_violated {L : Lib} (h : L.sqrt2 = 11863283 / 8388608) :
    1 / 30 < (filterOf rnd L .robidoux).kernel (5 / 4) -
      mitchellNetravali (robidouxParams L.sqrt2).1 (robidouxParams L.sqrt2).2 (5 / 4) := by
  show _ < Kernel.robidoux rnd L (5 / 4) - _
  unfold Kernel.robidoux
  rw [mn_outer (by norm_num) (by norm_num)]
  simp only [robidouxParams, h]
  decide +kernel

example : 1 / 30 < (filterOf rnd Demo.sqrt2Lib .robidoux).kernel (5 / 4) -
    mitchellNetravali (robidouxParams Demo.sqrt2Lib.sqrt2).1 (robidouxParams Demo.sqrt2Lib.sqrt2).2 (5 / 4) :=
  C264_violated rfl

end PicScale
