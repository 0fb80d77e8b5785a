import Verif.Lemmas.Ringing
import Verif.Model.Kernels

/-!
Binary32 error analysis of the cubic kernels with negative lobes.
-/

namespace PicScale

open F32

/-- `a` is a computed value of `e`: error at most `d`, size at most `v`. -/
def Calc (a e d v : ℚ) : Prop := |a - e| ≤ d ∧ |a| ≤ v

theorem calc_const {a v : ℚ} (h : |a| ≤ v) : Calc a a 0 v := ⟨by simp, h⟩

theorem Calc.mono {a e d v d' v' : ℚ} (h : Calc a e d v) (hd : d ≤ d') (hv : v ≤ v') : Calc a e d' v' :=
  ⟨le_trans h.1 hd, le_trans h.2 hv⟩

theorem calc_rnd {q e d v : ℚ} (h : Calc q e d v) : Calc (rnd q) e (d + (v / 2 ^ 24 + 1 / 2 ^ 150)) (v + (v / 2 ^ 24 + 1 / 2 ^ 150)) := by
  have r := rnd_within h.2
  constructor
  · have := abs_add_le (rnd q - q) (q - e)
    rw [sub_add_sub_cancel] at this
    linarith [h.1]
  · have := abs_add_le (rnd q - q) q
    rw [sub_add_cancel] at this
    linarith [h.2]

theorem Calc.add {a b e f d d' v v' : ℚ} (h : Calc a e d v) (h' : Calc b f d' v') :
    Calc (rnd (a + b)) (e + f) (d + d' + ((v + v') / 2 ^ 24 + 1 / 2 ^ 150)) (v + v' + ((v + v') / 2 ^ 24 + 1 / 2 ^ 150)) := by
  refine calc_rnd ⟨?_, le_trans (abs_add_le _ _) (add_le_add h.2 h'.2)⟩
  have := abs_add_le (a - e) (b - f)
  rw [show a - e + (b - f) = a + b - (e + f) by ring] at this
  linarith [h.1, h'.1]

theorem Calc.neg {a e d v : ℚ} (h : Calc a e d v) : Calc (-a) (-e) d v := by
  refine ⟨?_, by rw [abs_neg]; exact h.2⟩
  rw [show -a - -e = -(a - e) by ring, abs_neg]; exact h.1

theorem Calc.sub {a b e f d d' v v' : ℚ} (h : Calc a e d v) (h' : Calc b f d' v') :
    Calc (rnd (a - b)) (e - f) (d + d' + ((v + v') / 2 ^ 24 + 1 / 2 ^ 150)) (v + v' + ((v + v') / 2 ^ 24 + 1 / 2 ^ 150)) := by
  have := h.add h'.neg
  rwa [← sub_eq_add_neg, ← sub_eq_add_neg] at this

theorem Calc.mul {a b e f d d' v v' : ℚ} (h : Calc a e d v) (h' : Calc b f d' v') :
    Calc (rnd (a * b)) (e * f) (d * v' + (v + d) * d' + (v * v' / 2 ^ 24 + 1 / 2 ^ 150)) (v * v' + (v * v' / 2 ^ 24 + 1 / 2 ^ 150)) := by
  have v0 : 0 ≤ v := le_trans (abs_nonneg _) h.2
  have v0' : 0 ≤ v' := le_trans (abs_nonneg _) h'.2
  have d0 : 0 ≤ d := le_trans (abs_nonneg _) h.1
  have he : |e| ≤ v + d := by
    have := abs_sub_abs_le_abs_sub e a
    rw [abs_sub_comm] at this
    linarith [h.1, h.2]
  refine calc_rnd ⟨?_, by rw [abs_mul]; exact mul_le_mul h.2 h'.2 (abs_nonneg _) v0⟩
  have := abs_add_le ((a - e) * b) (e * (b - f))
  rw [show (a - e) * b + e * (b - f) = a * b - e * f by ring, abs_mul, abs_mul] at this
  have a1 : |a - e| * |b| ≤ d * v' := mul_le_mul h.1 h'.2 (abs_nonneg _) d0
  have a2 : |e| * |b - f| ≤ (v + d) * d' := mul_le_mul he h'.1 (abs_nonneg _) (by linarith)
  linarith

theorem Calc.bounds {a e d v : ℚ} (h : Calc a e d v) : e - d ≤ a ∧ a ≤ e + d := by
  have := abs_le.1 h.1
  constructor <;> linarith [this.1, this.2]

theorem calc_sixth : Calc (rnd (1 / 6)) (rnd (1 / 6)) 0 (1 / 5) := by
  have e : rnd (1 / 6) = 11184811 / 67108864 := by decide +kernel
  exact calc_const (by rw [e]; norm_num [abs_of_pos])

theorem bc_sixth : rnd (1 / 6) = 11184811 / 67108864 := by decide +kernel

/-- The inner piece of the cubic kernels. -/
theorem bc_inner {A B D x : ℚ} (hA : |A| ≤ 12) (hB : |B| ≤ 18) (hD : |D| ≤ 6) (hx : |x| ≤ 1) :
    ∃ v, Calc (rnd (rnd (rnd (rnd (A * rnd (rnd (x * x) * x)) + rnd (B * rnd (x * x))) + D) * rnd (1 / 6)))
      ((A * (x * x * x) + B * (x * x) + D) * rnd (1 / 6)) (1 / 2 ^ 18) v := by
  have x1 := calc_const hx
  have dp := (x1.mul x1).mono (d' := 101 / 100 / 2 ^ 24) (v' := 1 + 1 / 2 ^ 20) (by norm_num) (by norm_num)
  have tp := (dp.mul x1).mono (d' := 203 / 100 / 2 ^ 24) (v' := 1 + 1 / 2 ^ 19) (by norm_num) (by norm_num)
  have a := ((calc_const hA).mul tp).mono (d' := 37 / 2 ^ 24) (v' := 12 + 1 / 2 ^ 15) (by norm_num) (by norm_num)
  have b := ((calc_const hB).mul dp).mono (d' := 37 / 2 ^ 24) (v' := 18 + 1 / 2 ^ 15) (by norm_num) (by norm_num)
  have ab := (a.add b).mono (d' := 105 / 2 ^ 24) (v' := 30 + 1 / 2 ^ 13) (by norm_num) (by norm_num)
  have abd := (ab.add (calc_const hD)).mono (d' := 142 / 2 ^ 24) (v' := 36 + 1 / 2 ^ 12) (by norm_num) (by norm_num)
  exact ⟨_, (abd.mul calc_sixth).mono (by norm_num) (le_refl _)⟩

/-- The outer piece of the cubic kernels. -/
theorem bc_outer {A B C D x : ℚ} (hA : |A| ≤ 4) (hB : |B| ≤ 16) (hC : |C| ≤ 32) (hD : |D| ≤ 16) (hx : |x| ≤ 2) :
    ∃ v, Calc (rnd (rnd (rnd (rnd (rnd (A * rnd (rnd (x * x) * x)) + rnd (B * rnd (x * x))) + rnd (C * x)) + D) * rnd (1 / 6)))
      ((A * (x * x * x) + B * (x * x) + C * x + D) * rnd (1 / 6)) (1 / 2 ^ 12) v := by
  have x1 := calc_const hx
  have dp := (x1.mul x1).mono (d' := 1 / 2 ^ 21) (v' := 5) (by norm_num) (by norm_num)
  have tp := (dp.mul x1).mono (d' := 1 / 2 ^ 18) (v' := 11) (by norm_num) (by norm_num)
  have a := ((calc_const hA).mul tp).mono (d' := 1 / 2 ^ 15) (v' := 45) (by norm_num) (by norm_num)
  have b := ((calc_const hB).mul dp).mono (d' := 1 / 2 ^ 16) (v' := 81) (by norm_num) (by norm_num)
  have c := ((calc_const hC).mul x1).mono (d' := 1 / 2 ^ 17) (v' := 65) (by norm_num) (by norm_num)
  have ab := (a.add b).mono (d' := 1 / 2 ^ 14) (v' := 127) (by norm_num) (by norm_num)
  have abc := (ab.add c).mono (d' := 1 / 2 ^ 13) (v' := 193) (by norm_num) (by norm_num)
  have abd := (abc.add (calc_const hD)).mono (d' := 1 / 2 ^ 12) (v' := 210) (by norm_num) (by norm_num)
  exact ⟨_, (abd.mul calc_sixth).mono (by norm_num) (le_refl _)⟩

/-- The coefficients of the two pieces of `bc_spline`, as the code computes them. -/
structure BcCoefs (b c A B D A' B' C' D' : ℚ) : Prop where
  ea : rnd (rnd (12 - rnd (9 * b)) - rnd (6 * c)) = A
  eb : rnd (rnd (-18 + rnd (12 * b)) + rnd (6 * c)) = B
  ed : rnd (6 - rnd (2 * b)) = D
  ea' : rnd (-b - rnd (6 * c)) = A'
  eb' : rnd (rnd (6 * b) + rnd (30 * c)) = B'
  ec' : rnd (rnd (-12 * b) - rnd (48 * c)) = C'
  ed' : rnd (rnd (8 * b) + rnd (24 * c)) = D'

theorem bcSpline_eq {b c A B D A' B' C' D' x : ℚ} (h : BcCoefs b c A B D A' B' C' D') (hx : 0 ≤ x) :
    Kernel.bcSpline rnd x b c = if x < 1 then
      rnd (rnd (rnd (rnd (A * rnd (rnd (x * x) * x)) + rnd (B * rnd (x * x))) + D) * rnd (1 / 6))
    else if x < 2 then
      rnd (rnd (rnd (rnd (rnd (A' * rnd (rnd (x * x) * x)) + rnd (B' * rnd (x * x))) + rnd (C' * x)) + D') * rnd (1 / 6))
    else 0 := by
  unfold Kernel.bcSpline
  simp only [if_neg (not_lt.2 hx), h.ea, h.eb, h.ed, h.ea', h.eb', h.ec', h.ed']

/-- The kernel of a ringing filter: the part of `Ringing` that is about the kernel. -/
structure RingingKernel (k : ℚ → ℚ) : Prop where
  rep : ∀ x, 0 ≤ x → Rep (k x)
  inner : ∀ x, 0 ≤ x → x ≤ 1 → -(1 / 2 ^ 18) ≤ k x
  outer : ∀ x, 0 ≤ x → -(1 / 12) ≤ k x
  le_two : ∀ x, 0 ≤ x → k x ≤ 2
  centre : ∀ x, 0 ≤ x → x ≤ 1 / 2 → 9 / 20 ≤ k x

theorem rep_zero' : Rep 0 := ⟨0, 0, by simp, by norm_num, by omega⟩

theorem bcSpline_ringing {b c A B D A' B' C' D' : ℚ} (h : BcCoefs b c A B D A' B' C' D')
    (hb : |A| ≤ 12 ∧ |B| ≤ 18 ∧ |D| ≤ 6 ∧ |A'| ≤ 4 ∧ |B'| ≤ 16 ∧ |C'| ≤ 32 ∧ |D'| ≤ 16)
    (hin : ∀ x : ℚ, 0 ≤ x → x ≤ 1 → 0 ≤ A * (x * x * x) + B * (x * x) + D ∧ A * (x * x * x) + B * (x * x) + D ≤ 7)
    (hc : ∀ x : ℚ, 0 ≤ x → x ≤ 1 / 2 → 275 / 100 ≤ A * (x * x * x) + B * (x * x) + D)
    (hout : ∀ x : ℚ, 1 ≤ x → x < 2 → -(46 / 100) ≤ A' * (x * x * x) + B' * (x * x) + C' * x + D' ∧
      A' * (x * x * x) + B' * (x * x) + C' * x + D' ≤ 7)
    (hone : -(1 / 2 ^ 18) ≤ rnd (rnd (rnd (rnd (rnd (A' * rnd (rnd (1 * 1) * 1)) + rnd (B' * rnd (1 * 1))) + rnd (C' * 1)) + D') * rnd (1 / 6))) :
    RingingKernel fun x => Kernel.bcSpline rnd x b c := by
  obtain ⟨b1, b2, b3, b4, b5, b6, b7⟩ := hb
  have six : (0 : ℚ) < 11184811 / 67108864 := by norm_num
  have inn : ∀ x, 0 ≤ x → x < 1 → -(1 / 2 ^ 18) ≤ Kernel.bcSpline rnd x b c ∧ Kernel.bcSpline rnd x b c ≤ 2 ∧
      (x ≤ 1 / 2 → 9 / 20 ≤ Kernel.bcSpline rnd x b c) := by
    intro x x0 x1
    rw [bcSpline_eq h x0, if_pos x1]
    obtain ⟨v, hv⟩ := bc_inner b1 b2 b3 (show |x| ≤ 1 by rw [abs_of_nonneg x0]; exact x1.le)
    have hh := hv.bounds
    obtain ⟨p0, p1⟩ := hin x x0 x1.le
    rw [bc_sixth] at hh ⊢
    refine ⟨?_, ?_, fun hx => ?_⟩
    · nlinarith [hh.1]
    · nlinarith [hh.2]
    · have := hc x x0 hx
      nlinarith [hh.1]
  have out : ∀ x, 1 ≤ x → x < 2 → -(1 / 12) ≤ Kernel.bcSpline rnd x b c ∧ Kernel.bcSpline rnd x b c ≤ 2 := by
    intro x x1 x2
    rw [bcSpline_eq h (by linarith), if_neg (not_lt.2 x1), if_pos x2]
    obtain ⟨v, hv⟩ := bc_outer b4 b5 b6 b7 (show |x| ≤ 2 by rw [abs_of_nonneg (by linarith)]; exact x2.le)
    have hh := hv.bounds
    obtain ⟨p0, p1⟩ := hout x x1 x2
    rw [bc_sixth] at hh ⊢
    constructor
    · nlinarith [hh.1]
    · nlinarith [hh.2]
  have big : ∀ x, 2 ≤ x → Kernel.bcSpline rnd x b c = 0 := by
    intro x x2
    rw [bcSpline_eq h (by linarith), if_neg (by linarith), if_neg (by linarith)]
  refine ⟨fun x x0 => ?_, fun x x0 x1 => ?_, fun x x0 => ?_, fun x x0 => ?_, fun x x0 x1 => ?_⟩
  · simp only [bcSpline_eq h x0]
    split_ifs
    · exact rep_rnd _
    · exact rep_rnd _
    · exact rep_zero'
  · rcases lt_or_eq_of_le x1 with x1 | rfl
    · exact (inn x x0 x1).1
    · simp only [bcSpline_eq h x0]
      rw [if_neg (by norm_num), if_pos (by norm_num)]
      exact hone
  · rcases lt_or_ge x 1 with x1 | x1
    · have := (inn x x0 x1).1
      refine le_trans (by norm_num) this
    rcases lt_or_ge x 2 with x2 | x2
    · exact (out x x1 x2).1
    · simp only [big x x2]; norm_num
  · rcases lt_or_ge x 1 with x1 | x1
    · exact (inn x x0 x1).2.1
    rcases lt_or_ge x 2 with x2 | x2
    · exact (out x x1 x2).2
    · simp only [big x x2]; norm_num
  · exact (inn x x0 (by linarith)).2.2 x1

/-! ### The filters -/

theorem coefs_hermite : BcCoefs 0 0 12 (-18) 6 0 0 0 0 := by constructor <;> decide +kernel
theorem coefs_bSpline : BcCoefs 1 0 3 (-6) 4 (-1) 6 (-12) 8 := by constructor <;> decide +kernel
theorem coefs_mitchell : BcCoefs (rnd (1 / 3)) (rnd (1 / 3)) 7 (-12) (11184811 / 2097152) (-9786709 / 4194304) 12 (-20)
    (11184811 / 1048576) := by constructor <;> decide +kernel
theorem coefs_catmull : BcCoefs 0 (1 / 2) 9 (-15) 6 (-3) 15 (-24) 12 := by constructor <;> decide +kernel

theorem ringing_hermite : RingingKernel (Kernel.hermiteSpline rnd) := by
  refine bcSpline_ringing coefs_hermite (by norm_num [abs_of_pos, abs_of_neg]) (fun x x0 x1 => ⟨?_, ?_⟩) (fun x x0 x1 => ?_)
    (fun x x1 x2 => ⟨by norm_num, by norm_num⟩) (by decide +kernel)
  · nlinarith [mul_nonneg (sq_nonneg (1 - x)) (show 0 ≤ 2 * x + 1 by linarith)]
  · nlinarith [mul_nonneg (mul_nonneg x0 x0) (show 0 ≤ 3 - 2 * x by linarith)]
  · nlinarith [mul_nonneg (mul_nonneg x0 x0) (show 0 ≤ 1 / 2 - x by linarith), mul_nonneg (show 0 ≤ 1 / 2 - x by linarith) x0]

theorem ringing_bSpline : RingingKernel (Kernel.bSpline rnd) := by
  refine bcSpline_ringing coefs_bSpline (by norm_num [abs_of_pos, abs_of_neg]) (fun x x0 x1 => ⟨?_, ?_⟩) (fun x x0 x1 => ?_)
    (fun x x1 x2 => ⟨?_, ?_⟩) (by decide +kernel)
  · nlinarith [mul_nonneg (mul_nonneg x0 x0) x0, mul_nonneg x0 (show 0 ≤ 1 - x by linarith), mul_nonneg (mul_nonneg x0 x0) (show 0 ≤ 1 - x by linarith)]
  · nlinarith [mul_nonneg (mul_nonneg x0 x0) (show 0 ≤ 1 - x by linarith), mul_nonneg x0 x0]
  · nlinarith [mul_nonneg (mul_nonneg x0 x0) x0, mul_nonneg (show 0 ≤ 1 / 2 - x by linarith) x0]
  · have := pow_nonneg (show 0 ≤ 2 - x by linarith) 3
    nlinarith
  · have := mul_nonneg (sq_nonneg (2 - x)) (show 0 ≤ x - 1 by linarith)
    nlinarith [sq_nonneg (2 - x), mul_nonneg (show 0 ≤ 2 - x by linarith) (show 0 ≤ x - 1 by linarith)]

theorem ringing_mitchell : RingingKernel (Kernel.mitchellNetravalli rnd) := by
  refine bcSpline_ringing coefs_mitchell (by norm_num [abs_of_pos, abs_of_neg]) (fun x x0 x1 => ⟨?_, ?_⟩) (fun x x0 x1 => ?_)
    (fun x x1 x2 => ⟨?_, ?_⟩) (by decide +kernel)
  · nlinarith [mul_nonneg (mul_nonneg x0 x0) (show 0 ≤ 1 - x by linarith), mul_nonneg x0 (show 0 ≤ 1 - x by linarith)]
  · nlinarith [mul_nonneg (mul_nonneg x0 x0) (show 0 ≤ 1 - x by linarith), mul_nonneg x0 x0]
  · nlinarith [mul_nonneg (mul_nonneg x0 x0) x0, mul_nonneg (show 0 ≤ 1 / 2 - x by linarith) x0]
  · have := mul_nonneg (sq_nonneg (x - 34 / 21)) (show 0 ≤ 2 - x by linarith)
    nlinarith [mul_nonneg (show 0 ≤ 2 - x by linarith) (show 0 ≤ x - 1 by linarith)]
  · nlinarith [mul_nonneg (mul_nonneg (show 0 ≤ x by linarith) (show 0 ≤ x by linarith)) (show 0 ≤ x - 1 by linarith),
      mul_nonneg (show 0 ≤ 2 - x by linarith) (show 0 ≤ x - 1 by linarith), mul_nonneg (sq_nonneg x) (show 0 ≤ 2 - x by linarith)]

theorem ringing_catmull : RingingKernel (Kernel.catmullRom rnd) := by
  refine bcSpline_ringing coefs_catmull (by norm_num [abs_of_pos, abs_of_neg]) (fun x x0 x1 => ⟨?_, ?_⟩) (fun x x0 x1 => ?_)
    (fun x x1 x2 => ⟨?_, ?_⟩) (by decide +kernel)
  · nlinarith [mul_nonneg (show 0 ≤ 1 - x by linarith) (show 0 ≤ 2 + 2 * x - 3 * (x * x) by nlinarith)]
  · nlinarith [mul_nonneg (mul_nonneg x0 x0) (show 0 ≤ 1 - x by linarith), mul_nonneg x0 x0]
  · nlinarith [mul_nonneg (mul_nonneg x0 x0) x0, mul_nonneg (show 0 ≤ 1 / 2 - x by linarith) x0]
  · have := mul_nonneg (sq_nonneg (x - 4 / 3)) (show 0 ≤ 7 / 3 - x by linarith)
    nlinarith
  · have := mul_nonneg (sq_nonneg (x - 2)) (show 0 ≤ x - 1 by linarith)
    nlinarith

/-- The inner piece of the cubic kernel. -/
theorem cubic_inner {x : ℚ} (x0 : 0 ≤ x) (x1 : x < 1) :
    ∃ v, Calc (Kernel.cubicSpline rnd x) ((4 + x * x * (3 * x - 6)) * rnd (1 / 6)) (1 / 2 ^ 12) v := by
  have e : Kernel.cubicSpline rnd x = rnd (rnd (4 + rnd (rnd (x * x) * rnd (rnd (3 * x) - 6))) * rnd (1 / 6)) := by
    unfold Kernel.cubicSpline
    simp only [if_neg (not_lt.2 x0), if_pos x1]
  rw [e]
  have c1 := calc_const (show |x| ≤ 1 by rw [abs_of_nonneg x0]; exact x1.le)
  have xx := (c1.mul c1).mono (d' := 1 / 2 ^ 20) (v' := 2) (by norm_num) (by norm_num)
  have t := ((calc_const (show |(3 : ℚ)| ≤ 3 by norm_num)).mul c1).mono (d' := 1 / 2 ^ 20) (v' := 4) (by norm_num) (by norm_num)
  have t6 := (t.sub (calc_const (show |(6 : ℚ)| ≤ 6 by norm_num))).mono (d' := 1 / 2 ^ 18) (v' := 11) (by norm_num) (by norm_num)
  have p := (xx.mul t6).mono (d' := 1 / 2 ^ 14) (v' := 23) (by norm_num) (by norm_num)
  have p4 := ((calc_const (show |(4 : ℚ)| ≤ 4 by norm_num)).add p).mono (d' := 1 / 2 ^ 13) (v' := 28) (by norm_num) (by norm_num)
  exact ⟨_, ((p4.mul calc_sixth).mono (d' := 1 / 2 ^ 12) (by norm_num) (le_refl _))⟩

/-- The outer piece of the cubic kernel. -/
theorem cubic_outer {x : ℚ} (x1 : 1 ≤ x) (x2 : x < 2) :
    ∃ v, Calc (Kernel.cubicSpline rnd x) ((8 + x * (-12 + x * (6 - x))) * rnd (1 / 6)) (1 / 2 ^ 12) v := by
  have e : Kernel.cubicSpline rnd x = rnd (rnd (8 + rnd (x * rnd (-12 + rnd (x * rnd (6 - x))))) * rnd (1 / 6)) := by
    unfold Kernel.cubicSpline
    simp only [if_neg (show ¬ x < 0 by linarith), if_neg (not_lt.2 x1), if_pos x2]
  rw [e]
  have c1 := calc_const (show |x| ≤ 2 by rw [abs_of_nonneg (by linarith)]; exact x2.le)
  have t := ((calc_const (show |(6 : ℚ)| ≤ 6 by norm_num)).sub c1).mono (d' := 1 / 2 ^ 20) (v' := 9) (by norm_num) (by norm_num)
  have t2 := (c1.mul t).mono (d' := 1 / 2 ^ 18) (v' := 19) (by norm_num) (by norm_num)
  have t3 := ((calc_const (show |(-12 : ℚ)| ≤ 12 by norm_num)).add t2).mono (d' := 1 / 2 ^ 17) (v' := 32) (by norm_num) (by norm_num)
  have t4 := (c1.mul t3).mono (d' := 1 / 2 ^ 15) (v' := 65) (by norm_num) (by norm_num)
  have t5 := ((calc_const (show |(8 : ℚ)| ≤ 8 by norm_num)).add t4).mono (d' := 1 / 2 ^ 14) (v' := 74) (by norm_num) (by norm_num)
  exact ⟨_, ((t5.mul calc_sixth).mono (d' := 1 / 2 ^ 12) (by norm_num) (le_refl _))⟩

/-- The inner piece of the bicubic kernel. -/
theorem bicubic_inner {x : ℚ} (x0 : 0 ≤ x) (x1 : x ≤ 1) :
    ∃ v, Calc (Kernel.bicubicSpline rnd x) (3 / 2 * (x * x * x) - 5 / 2 * (x * x) + 1) (1 / 2 ^ 18) v := by
  have a2 : rnd (-1 / 2 + 2) = 3 / 2 := by decide +kernel
  have a3 : rnd (-1 / 2 + 3) = 5 / 2 := by decide +kernel
  have e : Kernel.bicubicSpline rnd x = rnd (rnd (rnd (3 / 2 * rnd (rnd (x * x) * x)) - rnd (5 / 2 * rnd (x * x))) + 1) := by
    unfold Kernel.bicubicSpline
    simp only [abs_of_nonneg x0, if_neg (show ¬ 2 ≤ x by linarith), if_pos x1, a2, a3]
  rw [e]
  have c1 := calc_const (show |x| ≤ 1 by rw [abs_of_nonneg x0]; exact x1)
  have dp := (c1.mul c1).mono (d' := 101 / 100 / 2 ^ 24) (v' := 1 + 1 / 2 ^ 20) (by norm_num) (by norm_num)
  have tp := (dp.mul c1).mono (d' := 203 / 100 / 2 ^ 24) (v' := 1 + 1 / 2 ^ 19) (by norm_num) (by norm_num)
  have a := ((calc_const (show |(3 / 2 : ℚ)| ≤ 3 / 2 by norm_num [abs_of_pos])).mul tp).mono (d' := 5 / 2 ^ 24) (v' := 2) (by norm_num) (by norm_num)
  have b := ((calc_const (show |(5 / 2 : ℚ)| ≤ 5 / 2 by norm_num [abs_of_pos])).mul dp).mono (d' := 6 / 2 ^ 24) (v' := 3) (by norm_num) (by norm_num)
  have ab := (a.sub b).mono (d' := 17 / 2 ^ 24) (v' := 6) (by norm_num) (by norm_num)
  exact ⟨_, ((ab.add (calc_const (show |(1 : ℚ)| ≤ 1 by norm_num))).mono (d' := 1 / 2 ^ 18) (by norm_num) (le_refl _))⟩

/-- The outer piece of the bicubic kernel. -/
theorem bicubic_outer {x : ℚ} (x1 : 1 < x) (x2 : x < 2) :
    ∃ v, Calc (Kernel.bicubicSpline rnd x) (-1 / 2 * (x * x * x) - -5 / 2 * (x * x) + -4 * x - -2) (1 / 2 ^ 12) v := by
  have a5 : rnd (5 * (-1 / 2)) = -5 / 2 := by decide +kernel
  have a8 : rnd (8 * (-1 / 2)) = -4 := by decide +kernel
  have a4 : rnd (4 * (-1 / 2)) = -2 := by decide +kernel
  have e : Kernel.bicubicSpline rnd x = rnd (rnd (rnd (rnd (-1 / 2 * rnd (rnd (x * x) * x)) - rnd (-5 / 2 * rnd (x * x))) + rnd (-4 * x)) - -2) := by
    unfold Kernel.bicubicSpline
    simp only [abs_of_nonneg (show 0 ≤ x by linarith), if_neg (show ¬ 2 ≤ x by linarith), if_neg (show ¬ x ≤ 1 by linarith), a5, a8, a4]
  rw [e]
  have c1 := calc_const (show |x| ≤ 2 by rw [abs_of_nonneg (by linarith)]; exact x2.le)
  have dp := (c1.mul c1).mono (d' := 1 / 2 ^ 21) (v' := 5) (by norm_num) (by norm_num)
  have tp := (dp.mul c1).mono (d' := 1 / 2 ^ 18) (v' := 11) (by norm_num) (by norm_num)
  have a := ((calc_const (show |(-1 / 2 : ℚ)| ≤ 1 by norm_num [abs_of_neg])).mul tp).mono (d' := 1 / 2 ^ 16) (v' := 12) (by norm_num) (by norm_num)
  have b := ((calc_const (show |(-5 / 2 : ℚ)| ≤ 3 by norm_num [abs_of_neg])).mul dp).mono (d' := 1 / 2 ^ 17) (v' := 16) (by norm_num) (by norm_num)
  have c := ((calc_const (show |(-4 : ℚ)| ≤ 4 by norm_num)).mul c1).mono (d' := 1 / 2 ^ 20) (v' := 9) (by norm_num) (by norm_num)
  have ab := (a.sub b).mono (d' := 1 / 2 ^ 15) (v' := 29) (by norm_num) (by norm_num)
  have abc := (ab.add c).mono (d' := 1 / 2 ^ 14) (v' := 39) (by norm_num) (by norm_num)
  exact ⟨_, ((abc.sub (calc_const (show |(-2 : ℚ)| ≤ 2 by norm_num))).mono (d' := 1 / 2 ^ 12) (by norm_num) (le_refl _))⟩

theorem ringing_cubic : RingingKernel (Kernel.cubicSpline rnd) := by
  have six : (0 : ℚ) < 11184811 / 67108864 := by norm_num
  have inn : ∀ x, 0 ≤ x → x < 1 → 0 ≤ Kernel.cubicSpline rnd x ∧ Kernel.cubicSpline rnd x ≤ 2 ∧
      (x ≤ 1 / 2 → 9 / 20 ≤ Kernel.cubicSpline rnd x) := by
    intro x x0 x1
    obtain ⟨_, hv⟩ := cubic_inner x0 x1
    have hh := hv.bounds
    rw [bc_sixth] at hh
    have q0 : 1 ≤ 4 + x * x * (3 * x - 6) := by
      nlinarith [mul_nonneg (mul_nonneg x0 x0) x0, mul_nonneg x0 (show 0 ≤ 1 - x by linarith), mul_nonneg (mul_nonneg x0 x0) (show 0 ≤ 1 - x by linarith)]
    have q1 : 4 + x * x * (3 * x - 6) ≤ 4 := by
      nlinarith [mul_nonneg (mul_nonneg x0 x0) (show 0 ≤ 1 - x by linarith), mul_nonneg x0 x0]
    refine ⟨by nlinarith [hh.1], by nlinarith [hh.2], fun hx => ?_⟩
    have q2 : 275 / 100 ≤ 4 + x * x * (3 * x - 6) := by
      nlinarith [mul_nonneg (mul_nonneg x0 x0) x0, mul_nonneg (show 0 ≤ 1 / 2 - x by linarith) x0]
    nlinarith [hh.1]
  have out : ∀ x, 1 ≤ x → x < 2 → -(1 / 12) ≤ Kernel.cubicSpline rnd x ∧ Kernel.cubicSpline rnd x ≤ 2 := by
    intro x x1 x2
    obtain ⟨_, hv⟩ := cubic_outer x1 x2
    have hh := hv.bounds
    rw [bc_sixth] at hh
    have q0 : 0 ≤ 8 + x * (-12 + x * (6 - x)) := by
      have := pow_nonneg (show 0 ≤ 2 - x by linarith) 3
      nlinarith
    have q1 : 8 + x * (-12 + x * (6 - x)) ≤ 1 := by
      have := mul_nonneg (sq_nonneg (2 - x)) (show 0 ≤ x - 1 by linarith)
      nlinarith [sq_nonneg (2 - x), mul_nonneg (show 0 ≤ 2 - x by linarith) (show 0 ≤ x - 1 by linarith)]
    exact ⟨by nlinarith [hh.1], by nlinarith [hh.2]⟩
  have big : ∀ x, 2 ≤ x → Kernel.cubicSpline rnd x = 0 := by
    intro x x2
    unfold Kernel.cubicSpline
    simp only [if_neg (show ¬ x < 0 by linarith), if_neg (show ¬ x < 1 by linarith), if_neg (not_lt.2 x2)]
  refine ⟨fun x x0 => ?_, fun x x0 x1 => ?_, fun x x0 => ?_, fun x x0 => ?_, fun x x0 x1 => ?_⟩
  · unfold Kernel.cubicSpline
    simp only
    split_ifs
    all_goals first | exact rep_rnd _ | exact rep_zero'
  · rcases lt_or_eq_of_le x1 with x1 | rfl
    · exact le_trans (by norm_num) (inn x x0 x1).1
    · decide +kernel
  · rcases lt_or_ge x 1 with x1 | x1
    · exact le_trans (by norm_num) (inn x x0 x1).1
    rcases lt_or_ge x 2 with x2 | x2
    · exact (out x x1 x2).1
    · rw [big x x2]; norm_num
  · rcases lt_or_ge x 1 with x1 | x1
    · exact (inn x x0 x1).2.1
    rcases lt_or_ge x 2 with x2 | x2
    · exact (out x x1 x2).2
    · rw [big x x2]; norm_num
  · exact (inn x x0 (by linarith)).2.2 x1

theorem ringing_bicubic : RingingKernel (Kernel.bicubicSpline rnd) := by
  have inn : ∀ x, 0 ≤ x → x ≤ 1 → -(1 / 2 ^ 18) ≤ Kernel.bicubicSpline rnd x ∧ Kernel.bicubicSpline rnd x ≤ 2 ∧
      (x ≤ 1 / 2 → 9 / 20 ≤ Kernel.bicubicSpline rnd x) := by
    intro x x0 x1
    obtain ⟨_, hv⟩ := bicubic_inner x0 x1
    have hh := hv.bounds
    have q0 : 0 ≤ 3 / 2 * (x * x * x) - 5 / 2 * (x * x) + 1 := by
      nlinarith [mul_nonneg (show 0 ≤ 1 - x by linarith) (show 0 ≤ 2 + 2 * x - 3 * (x * x) by nlinarith)]
    have q1 : 3 / 2 * (x * x * x) - 5 / 2 * (x * x) + 1 ≤ 1 := by
      nlinarith [mul_nonneg (mul_nonneg x0 x0) (show 0 ≤ 1 - x by linarith), mul_nonneg x0 x0]
    refine ⟨by linarith [hh.1], by linarith [hh.2], fun hx => ?_⟩
    have q2 : 46 / 100 ≤ 3 / 2 * (x * x * x) - 5 / 2 * (x * x) + 1 := by
      nlinarith [mul_nonneg (mul_nonneg x0 x0) x0, mul_nonneg (show 0 ≤ 1 / 2 - x by linarith) x0]
    linarith [hh.1]
  have out : ∀ x, 1 < x → x < 2 → -(1 / 12) ≤ Kernel.bicubicSpline rnd x ∧ Kernel.bicubicSpline rnd x ≤ 2 := by
    intro x x1 x2
    obtain ⟨_, hv⟩ := bicubic_outer x1 x2
    have hh := hv.bounds
    have q0 : -(77 / 1000) ≤ -1 / 2 * (x * x * x) - -5 / 2 * (x * x) + -4 * x - -2 := by
      have := mul_nonneg (sq_nonneg (x - 4 / 3)) (show 0 ≤ 7 / 3 - x by linarith)
      nlinarith
    have q1 : -1 / 2 * (x * x * x) - -5 / 2 * (x * x) + -4 * x - -2 ≤ 1 := by
      have := mul_nonneg (sq_nonneg (x - 2)) (show 0 ≤ x - 1 by linarith)
      nlinarith
    exact ⟨by linarith [hh.1], by linarith [hh.2]⟩
  have big : ∀ x, 2 ≤ x → Kernel.bicubicSpline rnd x = 0 := by
    intro x x2
    unfold Kernel.bicubicSpline
    simp only [abs_of_nonneg (show 0 ≤ x by linarith), if_pos x2]
  refine ⟨fun x x0 => ?_, fun x x0 x1 => (inn x x0 x1).1, fun x x0 => ?_, fun x x0 => ?_, fun x x0 x1 => ?_⟩
  · unfold Kernel.bicubicSpline
    simp only
    split_ifs
    all_goals first | exact rep_rnd _ | exact rep_zero'
  · rcases le_or_gt x 1 with x1 | x1
    · exact le_trans (by norm_num) (inn x x0 x1).1
    rcases lt_or_ge x 2 with x2 | x2
    · exact (out x x1 x2).1
    · rw [big x x2]; norm_num
  · rcases le_or_gt x 1 with x1 | x1
    · exact (inn x x0 x1).2.1
    rcases lt_or_ge x 2 with x2 | x2
    · exact (out x x1 x2).2
    · rw [big x x2]; norm_num
  · exact (inn x x0 (by linarith)).2.2 x1

/-- The robidoux kernels, given the constant `√2` as binary32 has it. -/
theorem ringing_robidoux {L : Lib} (h : L.sqrt2 = 11863283 / 8388608) :
    RingingKernel (Kernel.robidoux rnd L) ∧ RingingKernel (Kernel.robidouxSharp rnd L) := by
  constructor
  · unfold Kernel.robidoux
    rw [h]
    have co : BcCoefs (rnd (12 / rnd (19 + rnd (9 * (11863283 / 8388608))))) (rnd (13 / rnd (58 + rnd (216 * (11863283 / 8388608)))))
        (4394299 / 524288) (-6945145 / 524288) (687285 / 131072) (-4972883 / 8388608) (6845 / 2048) (-6559235 / 1048576)
        (8145587 / 2097152) := by constructor <;> decide +kernel
    refine bcSpline_ringing co (by norm_num [abs_of_pos, abs_of_neg]) (fun x x0 x1 => ⟨?_, ?_⟩) (fun x x0 x1 => ?_)
      (fun x x1 x2 => ⟨?_, ?_⟩) (by decide +kernel)
    · nlinarith [mul_nonneg (mul_nonneg x0 x0) (show 0 ≤ 1 - x by linarith), mul_nonneg (show 0 ≤ 1 - x by linarith) (show 0 ≤ 1 - x by linarith), mul_nonneg x0 (mul_nonneg (show 0 ≤ 1 - x by linarith) (show 0 ≤ 1 - x by linarith))]
    · nlinarith [mul_nonneg (mul_nonneg x0 x0) (show 0 ≤ 1 - x by linarith), mul_nonneg x0 x0]
    · nlinarith [mul_nonneg (mul_nonneg x0 x0) x0, mul_nonneg (show 0 ≤ 1 / 2 - x by linarith) x0]
    · have := mul_nonneg (sq_nonneg (x - 2)) (show 0 ≤ x - 1 by linarith)
      nlinarith [mul_nonneg (show 0 ≤ 2 - x by linarith) (show 0 ≤ x - 1 by linarith), sq_nonneg (2 - x), mul_nonneg (sq_nonneg (x - 2)) (show 0 ≤ 2 - x by linarith)]
    · have := mul_nonneg (sq_nonneg (x - 2)) (show 0 ≤ x - 1 by linarith)
      nlinarith [mul_nonneg (show 0 ≤ 2 - x by linarith) (show 0 ≤ x - 1 by linarith), sq_nonneg (2 - x)]
  · unfold Kernel.robidouxSharp
    rw [h]
    have co : BcCoefs (rnd (6 / rnd (13 + rnd (7 * (11863283 / 8388608))))) (rnd (7 / rnd (2 + rnd (12 * (11863283 / 8388608)))))
        (15577463 / 2097152) (-1656995 / 131072) (1435493 / 262144) (-5192487 / 2097152) (13255961 / 1048576)
        (-10934459 / 524288) (11483943 / 1048576) := by constructor <;> decide +kernel
    refine bcSpline_ringing co (by norm_num [abs_of_pos, abs_of_neg]) (fun x x0 x1 => ⟨?_, ?_⟩) (fun x x0 x1 => ?_)
      (fun x x1 x2 => ⟨?_, ?_⟩) (by decide +kernel)
    · nlinarith [mul_nonneg (mul_nonneg x0 x0) (show 0 ≤ 1 - x by linarith), mul_nonneg x0 (show 0 ≤ 1 - x by linarith)]
    · nlinarith [mul_nonneg (mul_nonneg x0 x0) (show 0 ≤ 1 - x by linarith), mul_nonneg x0 x0]
    · nlinarith [mul_nonneg (mul_nonneg x0 x0) x0, mul_nonneg (show 0 ≤ 1 / 2 - x by linarith) x0]
    · have := mul_nonneg (sq_nonneg (x - 3 / 2)) (show 0 ≤ 2 - x by linarith)
      nlinarith [mul_nonneg (show 0 ≤ 2 - x by linarith) (show 0 ≤ x - 1 by linarith), mul_nonneg (sq_nonneg (x - 2)) (show 0 ≤ x - 1 by linarith)]
    · have := mul_nonneg (sq_nonneg (x - 2)) (show 0 ≤ x - 1 by linarith)
      nlinarith [mul_nonneg (show 0 ≤ 2 - x by linarith) (show 0 ≤ x - 1 by linarith), sq_nonneg (2 - x)]

end PicScale
