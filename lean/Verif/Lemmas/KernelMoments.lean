import Verif.Lemmas.Moments
import Verif.Model.Kernels

/-!
The moments of the polynomial kernels, in exact arithmetic.
-/

namespace PicScale

open Spec Kernel

theorem moments_two {k : ℚ → ℚ} {d : ℕ} (h : ∀ t : ℚ, 0 ≤ t → t < 1 → ∀ j, j ≤ d →
    (-t) ^ j * k t + (1 - t) ^ j * k (1 - t) = if j = 0 then 1 else 0) : Moments k 1 d := by
  intro t h0 h1 j hj
  rw [← h t h0 h1 j hj]
  simp only [Finset.sum_range_succ, Finset.sum_range_zero, Nat.reduceMul]
  push_cast
  have e1 : (0 : ℚ) + 1 - 1 - t = -t := by ring
  have e2 : (1 : ℚ) + 1 - 1 - t = 1 - t := by ring
  have a1 : |-t| = t := by rw [abs_of_nonpos (by linarith)]; ring
  have a2 : |1 - t| = 1 - t := abs_of_nonneg (by linarith)
  rw [e1, e2, a1, a2]; ring

theorem moments_four {k : ℚ → ℚ} {d : ℕ} (h : ∀ t : ℚ, 0 ≤ t → t < 1 → ∀ j, j ≤ d →
    (-(1 + t)) ^ j * k (1 + t) + (-t) ^ j * k t + (1 - t) ^ j * k (1 - t) + (2 - t) ^ j * k (2 - t) = if j = 0 then 1 else 0) : Moments k 2 d := by
  intro t h0 h1 j hj
  rw [← h t h0 h1 j hj]
  simp only [Finset.sum_range_succ, Finset.sum_range_zero, Nat.reduceMul]
  push_cast
  have e0 : (0 : ℚ) + 1 - 2 - t = (-(1 + t)) := by ring
  have a0 : |(-(1 + t))| = (1 + t) := by rw [abs_of_nonpos (by linarith)]; ring
  have e1 : (1 : ℚ) + 1 - 2 - t = (-t) := by ring
  have a1 : |(-t)| = t := by rw [abs_of_nonpos (by linarith)]; ring
  have e2 : (2 : ℚ) + 1 - 2 - t = (1 - t) := by ring
  have a2 : |(1 - t)| = (1 - t) := abs_of_nonneg (by linarith)
  have e3 : (3 : ℚ) + 1 - 2 - t = (2 - t) := by ring
  have a3 : |(2 - t)| = (2 - t) := abs_of_nonneg (by linarith)
  rw [e0, e1, e2, e3,
    a0, a1, a2, a3]; ring

theorem moments_six {k : ℚ → ℚ} {d : ℕ} (h : ∀ t : ℚ, 0 ≤ t → t < 1 → ∀ j, j ≤ d →
    (-(2 + t)) ^ j * k (2 + t) + (-(1 + t)) ^ j * k (1 + t) + (-t) ^ j * k t + (1 - t) ^ j * k (1 - t) + (2 - t) ^ j * k (2 - t) + (3 - t) ^ j * k (3 - t) = if j = 0 then 1 else 0) : Moments k 3 d := by
  intro t h0 h1 j hj
  rw [← h t h0 h1 j hj]
  simp only [Finset.sum_range_succ, Finset.sum_range_zero, Nat.reduceMul]
  push_cast
  have e0 : (0 : ℚ) + 1 - 3 - t = (-(2 + t)) := by ring
  have a0 : |(-(2 + t))| = (2 + t) := by rw [abs_of_nonpos (by linarith)]; ring
  have e1 : (1 : ℚ) + 1 - 3 - t = (-(1 + t)) := by ring
  have a1 : |(-(1 + t))| = (1 + t) := by rw [abs_of_nonpos (by linarith)]; ring
  have e2 : (2 : ℚ) + 1 - 3 - t = (-t) := by ring
  have a2 : |(-t)| = t := by rw [abs_of_nonpos (by linarith)]; ring
  have e3 : (3 : ℚ) + 1 - 3 - t = (1 - t) := by ring
  have a3 : |(1 - t)| = (1 - t) := abs_of_nonneg (by linarith)
  have e4 : (4 : ℚ) + 1 - 3 - t = (2 - t) := by ring
  have a4 : |(2 - t)| = (2 - t) := abs_of_nonneg (by linarith)
  have e5 : (5 : ℚ) + 1 - 3 - t = (3 - t) := by ring
  have a5 : |(3 - t)| = (3 - t) := abs_of_nonneg (by linarith)
  rw [e0, e1, e2, e3, e4, e5,
    a0, a1, a2, a3, a4, a5]; ring

theorem moments_eight {k : ℚ → ℚ} {d : ℕ} (h : ∀ t : ℚ, 0 ≤ t → t < 1 → ∀ j, j ≤ d →
    (-(3 + t)) ^ j * k (3 + t) + (-(2 + t)) ^ j * k (2 + t) + (-(1 + t)) ^ j * k (1 + t) + (-t) ^ j * k t + (1 - t) ^ j * k (1 - t) + (2 - t) ^ j * k (2 - t) + (3 - t) ^ j * k (3 - t) + (4 - t) ^ j * k (4 - t) = if j = 0 then 1 else 0) : Moments k 4 d := by
  intro t h0 h1 j hj
  rw [← h t h0 h1 j hj]
  simp only [Finset.sum_range_succ, Finset.sum_range_zero, Nat.reduceMul]
  push_cast
  have e0 : (0 : ℚ) + 1 - 4 - t = (-(3 + t)) := by ring
  have a0 : |(-(3 + t))| = (3 + t) := by rw [abs_of_nonpos (by linarith)]; ring
  have e1 : (1 : ℚ) + 1 - 4 - t = (-(2 + t)) := by ring
  have a1 : |(-(2 + t))| = (2 + t) := by rw [abs_of_nonpos (by linarith)]; ring
  have e2 : (2 : ℚ) + 1 - 4 - t = (-(1 + t)) := by ring
  have a2 : |(-(1 + t))| = (1 + t) := by rw [abs_of_nonpos (by linarith)]; ring
  have e3 : (3 : ℚ) + 1 - 4 - t = (-t) := by ring
  have a3 : |(-t)| = t := by rw [abs_of_nonpos (by linarith)]; ring
  have e4 : (4 : ℚ) + 1 - 4 - t = (1 - t) := by ring
  have a4 : |(1 - t)| = (1 - t) := abs_of_nonneg (by linarith)
  have e5 : (5 : ℚ) + 1 - 4 - t = (2 - t) := by ring
  have a5 : |(2 - t)| = (2 - t) := abs_of_nonneg (by linarith)
  have e6 : (6 : ℚ) + 1 - 4 - t = (3 - t) := by ring
  have a6 : |(3 - t)| = (3 - t) := abs_of_nonneg (by linarith)
  have e7 : (7 : ℚ) + 1 - 4 - t = (4 - t) := by ring
  have a7 : |(4 - t)| = (4 - t) := abs_of_nonneg (by linarith)
  rw [e0, e1, e2, e3, e4, e5, e6, e7,
    a0, a1, a2, a3, a4, a5, a6, a7]; ring

theorem moments_bilinear : Moments (bilinear id) 1 1 := by
  refine moments_two fun t h0 h1 j hj => ?_
  unfold bilinear
  simp only [id]
  rw [abs_of_nonneg h0, abs_of_nonneg (by linarith : 0 ≤ 1 - t), if_pos h1]
  rcases eq_or_lt_of_le h0 with rfl | h0
  · interval_cases j <;> norm_num
  · rw [if_pos (by linarith : 1 - t < 1)]
    interval_cases j <;> simp <;> ring

theorem moments_bcSpline0 (b c : ℚ) : Moments (fun x => bcSpline id x b c) 2 0 := by
  refine moments_four fun t h0 h1 j hj => ?_
  unfold bcSpline
  simp only [id]
  rw [if_neg (by linarith : ¬ (1 + t < 0)), if_neg (by linarith : ¬ (t < 0)), if_neg (by linarith : ¬ (1 - t < 0)),
    if_neg (by linarith : ¬ (2 - t < 0)), if_neg (by linarith : ¬ (1 + t < 1)), if_pos (by linarith : 1 + t < 2),
    if_pos h1, if_neg (by linarith : ¬ (2 - t < 1))]
  obtain rfl : j = 0 := by omega
  rcases eq_or_lt_of_le h0 with rfl | h0
  · norm_num; ring
  · rw [if_pos (by linarith : 1 - t < 1), if_pos (by linarith : 2 - t < 2)]
    simp; ring

theorem moments_bcSpline1 {b c : ℚ} (hb : b = 1 - 2 * c) : Moments (fun x => bcSpline id x b c) 2 1 := by
  refine moments_four fun t h0 h1 j hj => ?_
  unfold bcSpline
  simp only [id]
  rw [if_neg (by linarith : ¬ (1 + t < 0)), if_neg (by linarith : ¬ (t < 0)), if_neg (by linarith : ¬ (1 - t < 0)),
    if_neg (by linarith : ¬ (2 - t < 0)), if_neg (by linarith : ¬ (1 + t < 1)), if_pos (by linarith : 1 + t < 2),
    if_pos h1, if_neg (by linarith : ¬ (2 - t < 1))]
  subst hb
  rcases eq_or_lt_of_le h0 with rfl | h0
  · interval_cases j <;> norm_num <;> ring
  · rw [if_pos (by linarith : 1 - t < 1), if_pos (by linarith : 2 - t < 2)]
    interval_cases j <;> simp <;> ring

theorem moments_catmullRom : Moments (catmullRom id) 2 2 := by
  refine moments_four fun t h0 h1 j hj => ?_
  unfold catmullRom
  unfold bcSpline
  simp only [id]
  rw [if_neg (by linarith : ¬ (1 + t < 0)), if_neg (by linarith : ¬ (t < 0)), if_neg (by linarith : ¬ (1 - t < 0)),
    if_neg (by linarith : ¬ (2 - t < 0)), if_neg (by linarith : ¬ (1 + t < 1)), if_pos (by linarith : 1 + t < 2),
    if_pos h1, if_neg (by linarith : ¬ (2 - t < 1))]
  rcases eq_or_lt_of_le h0 with rfl | h0
  · interval_cases j <;> norm_num
  · rw [if_pos (by linarith : 1 - t < 1), if_pos (by linarith : 2 - t < 2)]
    interval_cases j <;> simp <;> ring

theorem moments_cubic : Moments (cubicSpline id) 2 1 := by
  refine moments_four fun t h0 h1 j hj => ?_
  unfold cubicSpline
  simp only [id]
  rw [if_neg (by linarith : ¬ (1 + t < 0)), if_neg (by linarith : ¬ (t < 0)), if_neg (by linarith : ¬ (1 - t < 0)),
    if_neg (by linarith : ¬ (2 - t < 0)), if_neg (by linarith : ¬ (1 + t < 1)), if_pos (by linarith : 1 + t < 2),
    if_pos h1, if_neg (by linarith : ¬ (2 - t < 1))]
  rcases eq_or_lt_of_le h0 with rfl | h0
  · interval_cases j <;> norm_num
  · rw [if_pos (by linarith : 1 - t < 1), if_pos (by linarith : 2 - t < 2)]
    interval_cases j <;> simp <;> ring

theorem moments_bicubic : Moments (bicubicSpline id) 2 2 := by
  refine moments_four fun t h0 h1 j hj => ?_
  unfold bicubicSpline
  simp only [id]
  rw [abs_of_nonneg h0, abs_of_nonneg (by linarith : 0 ≤ 1 + t), abs_of_nonneg (by linarith : 0 ≤ 1 - t),
    abs_of_nonneg (by linarith : 0 ≤ 2 - t), if_neg (by linarith : ¬ (2 ≤ 1 + t)), if_neg (by linarith : ¬ (2 ≤ t)),
    if_neg (by linarith : ¬ (2 ≤ 1 - t)), if_pos h1.le, if_pos (by linarith : 1 - t ≤ 1),
    if_neg (by linarith : ¬ (2 - t ≤ 1))]
  rcases eq_or_lt_of_le h0 with rfl | h0
  · interval_cases j <;> norm_num
  · rw [if_neg (by linarith : ¬ (1 + t ≤ 1)), if_neg (by linarith : ¬ (2 ≤ 2 - t))]
    interval_cases j <;> simp <;> ring

theorem moments_quadric : Moments (quadric id) 2 1 := by
  refine moments_four fun t h0 h1 j hj => ?_
  unfold quadric
  simp only [id]
  rw [abs_of_nonneg h0, abs_of_nonneg (by linarith : 0 ≤ 1 + t), abs_of_nonneg (by linarith : 0 ≤ 1 - t),
    abs_of_nonneg (by linarith : 0 ≤ 2 - t), if_neg (by linarith : ¬ (1 + t < 1 / 2)),
    if_neg (by linarith : ¬ (2 - t < 1 / 2)), if_pos (by linarith : t < 3 / 2), if_pos (by linarith : 1 - t < 3 / 2)]
  rcases lt_trichotomy t (1 / 2) with h | rfl | h
  · rw [if_pos h, if_neg (by linarith : ¬ (1 - t < 1 / 2)), if_pos (by linarith : 1 + t < 3 / 2),
      if_neg (by linarith : ¬ (2 - t < 3 / 2))]
    interval_cases j <;> simp <;> ring
  · interval_cases j <;> norm_num
  · rw [if_neg (by linarith : ¬ (t < 1 / 2)), if_pos (by linarith : 1 - t < 1 / 2),
      if_neg (by linarith : ¬ (1 + t < 3 / 2)), if_pos (by linarith : 2 - t < 3 / 2)]
    interval_cases j <;> simp <;> ring

theorem moments_spline16 : Moments (spline16 id) 2 1 := by
  refine moments_four fun t h0 h1 j hj => ?_
  unfold spline16
  simp only [id]
  rw [if_neg (by linarith : ¬ (1 + t < 1)), if_pos h1, if_neg (by linarith : ¬ (2 - t < 1))]
  rcases eq_or_lt_of_le h0 with rfl | h0
  · interval_cases j <;> norm_num
  · rw [if_pos (by linarith : 1 - t < 1)]
    interval_cases j <;> simp <;> ring

theorem moments_spline36 : Moments (spline36 id) 3 1 := by
  refine moments_six fun t h0 h1 j hj => ?_
  unfold spline36
  simp only [id]
  rw [if_neg (by linarith : ¬ (2 + t < 1)), if_neg (by linarith : ¬ (2 + t < 2)), if_neg (by linarith : ¬ (1 + t < 1)),
    if_pos (by linarith : 1 + t < 2), if_pos h1, if_neg (by linarith : ¬ (2 - t < 1)),
    if_neg (by linarith : ¬ (3 - t < 1)), if_neg (by linarith : ¬ (3 - t < 2))]
  rcases eq_or_lt_of_le h0 with rfl | h0
  · interval_cases j <;> norm_num
  · rw [if_pos (by linarith : 1 - t < 1), if_pos (by linarith : 2 - t < 2)]
    interval_cases j <;> simp <;> ring

theorem moments_spline64 : Moments (spline64 id) 4 1 := by
  refine moments_eight fun t h0 h1 j hj => ?_
  unfold spline64
  simp only [id]
  rw [if_neg (by linarith : ¬ (3 + t < 1)), if_neg (by linarith : ¬ (3 + t < 2)), if_neg (by linarith : ¬ (3 + t < 3)),
    if_neg (by linarith : ¬ (2 + t < 1)), if_neg (by linarith : ¬ (2 + t < 2)), if_pos (by linarith : 2 + t < 3),
    if_neg (by linarith : ¬ (1 + t < 1)), if_pos (by linarith : 1 + t < 2), if_pos h1,
    if_neg (by linarith : ¬ (2 - t < 1)), if_neg (by linarith : ¬ (3 - t < 1)), if_neg (by linarith : ¬ (3 - t < 2)),
    if_neg (by linarith : ¬ (4 - t < 1)), if_neg (by linarith : ¬ (4 - t < 2)), if_neg (by linarith : ¬ (4 - t < 3))]
  rcases eq_or_lt_of_le h0 with rfl | h0
  · interval_cases j <;> norm_num
  · rw [if_pos (by linarith : 1 - t < 1), if_pos (by linarith : 2 - t < 2), if_pos (by linarith : 3 - t < 3)]
    interval_cases j <;> simp <;> ring

theorem lagrange_piece {s m : ℕ} {x : ℚ} (h1 : (m : ℚ) ≤ x) (h2 : x < m + 1) (hs : x ≤ s) :
    lagrange id s x = (List.range (2 * s)).foldl (fun v i =>
      if i ≠ s + m then v * ((((s + m : ℕ) : ℚ) - (i : ℚ) - x) / (((s + m : ℕ) : ℚ) - (i : ℚ))) else v) 1 := by
  have e : ⌊(s : ℚ) + x⌋ = ((s + m : ℕ) : ℤ) := by
    rw [Int.floor_eq_iff]; push_cast; constructor <;> linarith
  unfold lagrange
  rw [if_neg (not_lt.2 hs)]
  simp only [id, e]
  have e2 : F32.toUsize ((s + m : ℕ) : ℤ) = s + m := by unfold F32.toUsize; omega
  rw [e2]

theorem moments_lagrange2 : Moments (lagrange id 2) 2 3 := by
  refine moments_four fun t h0 h1 j hj => ?_
  rcases eq_or_lt_of_le h0 with rfl | h0
  · rw [lagrange_piece (s := 2) (m := 1) (x := 1 + 0) (by push_cast; linarith) (by push_cast; linarith) (by push_cast; linarith),
      lagrange_piece (s := 2) (m := 0) (x := 0) (by push_cast; linarith) (by push_cast; linarith) (by push_cast; linarith),
      lagrange_piece (s := 2) (m := 1) (x := 1 - 0) (by push_cast; linarith) (by push_cast; linarith) (by push_cast; linarith),
      lagrange_piece (s := 2) (m := 2) (x := 2 - 0) (by push_cast; linarith) (by push_cast; linarith) (by push_cast; linarith)]
    simp only [Nat.reduceMul, List.range_succ, List.range_zero, List.nil_append, List.cons_append, List.foldl_cons, List.foldl_nil]
    interval_cases j <;> norm_num
  · rw [lagrange_piece (s := 2) (m := 1) (x := 1 + t) (by push_cast; linarith) (by push_cast; linarith) (by push_cast; linarith),
      lagrange_piece (s := 2) (m := 0) (x := t) (by push_cast; linarith) (by push_cast; linarith) (by push_cast; linarith),
      lagrange_piece (s := 2) (m := 0) (x := 1 - t) (by push_cast; linarith) (by push_cast; linarith) (by push_cast; linarith),
      lagrange_piece (s := 2) (m := 1) (x := 2 - t) (by push_cast; linarith) (by push_cast; linarith) (by push_cast; linarith)]
    simp only [Nat.reduceMul, List.range_succ, List.range_zero, List.nil_append, List.cons_append, List.foldl_cons, List.foldl_nil]
    interval_cases j <;> norm_num <;> ring

theorem moments_lagrange3 : Moments (lagrange id 3) 3 3 := by
  refine moments_six fun t h0 h1 j hj => ?_
  rcases eq_or_lt_of_le h0 with rfl | h0
  · rw [lagrange_piece (s := 3) (m := 2) (x := 2 + 0) (by push_cast; linarith) (by push_cast; linarith) (by push_cast; linarith),
      lagrange_piece (s := 3) (m := 1) (x := 1 + 0) (by push_cast; linarith) (by push_cast; linarith) (by push_cast; linarith),
      lagrange_piece (s := 3) (m := 0) (x := 0) (by push_cast; linarith) (by push_cast; linarith) (by push_cast; linarith),
      lagrange_piece (s := 3) (m := 1) (x := 1 - 0) (by push_cast; linarith) (by push_cast; linarith) (by push_cast; linarith),
      lagrange_piece (s := 3) (m := 2) (x := 2 - 0) (by push_cast; linarith) (by push_cast; linarith) (by push_cast; linarith),
      lagrange_piece (s := 3) (m := 3) (x := 3 - 0) (by push_cast; linarith) (by push_cast; linarith) (by push_cast; linarith)]
    simp only [Nat.reduceMul, List.range_succ, List.range_zero, List.nil_append, List.cons_append, List.foldl_cons, List.foldl_nil]
    interval_cases j <;> norm_num
  · rw [lagrange_piece (s := 3) (m := 2) (x := 2 + t) (by push_cast; linarith) (by push_cast; linarith) (by push_cast; linarith),
      lagrange_piece (s := 3) (m := 1) (x := 1 + t) (by push_cast; linarith) (by push_cast; linarith) (by push_cast; linarith),
      lagrange_piece (s := 3) (m := 0) (x := t) (by push_cast; linarith) (by push_cast; linarith) (by push_cast; linarith),
      lagrange_piece (s := 3) (m := 0) (x := 1 - t) (by push_cast; linarith) (by push_cast; linarith) (by push_cast; linarith),
      lagrange_piece (s := 3) (m := 1) (x := 2 - t) (by push_cast; linarith) (by push_cast; linarith) (by push_cast; linarith),
      lagrange_piece (s := 3) (m := 2) (x := 3 - t) (by push_cast; linarith) (by push_cast; linarith) (by push_cast; linarith)]
    simp only [Nat.reduceMul, List.range_succ, List.range_zero, List.nil_append, List.cons_append, List.foldl_cons, List.foldl_nil]
    interval_cases j <;> norm_num <;> ring

end PicScale
