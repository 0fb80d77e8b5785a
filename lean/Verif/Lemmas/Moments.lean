import Verif.SpecKernels
import Mathlib.Tactic.Linarith
import Mathlib.Tactic.Ring
import Mathlib.Tactic.FieldSimp
import Mathlib.Tactic.IntervalCases

/-!
A kernel reproduces polynomials of degree `d` when its moments of orders `0 .. d` are `1, 0, .., 0`.
-/

namespace PicScale

open Spec

/-- Moments of a kernel around `t`, over the pixels `1 - R .. R`. -/
def Moments (k : ℚ → ℚ) (R d : ℕ) : Prop :=
  ∀ t : ℚ, 0 ≤ t → t < 1 → ∀ j, j ≤ d →
    ∑ n ∈ Finset.range (2 * R), ((n : ℚ) + 1 - R - t) ^ j * k |(n : ℚ) + 1 - R - t| = if j = 0 then 1 else 0

theorem interpolate_eq (k : ℚ → ℚ) (R : ℕ) (p : ℤ → ℚ) (x : ℚ) :
    interpolate k R p x = ∑ n ∈ Finset.range (2 * R), p (⌊x⌋ - R + 1 + n) * k |(n : ℚ) + 1 - R - Int.fract x| := by
  unfold interpolate
  have e : Finset.Ioc (⌊x⌋ - R) (⌊x⌋ + R) = (Finset.range (2 * R)).image (fun n : ℕ => ⌊x⌋ - R + 1 + (n : ℤ)) := by
    ext z
    simp only [Finset.mem_Ioc, Finset.mem_image, Finset.mem_range]
    constructor
    · rintro ⟨h1, h2⟩
      exact ⟨(z - (⌊x⌋ - R + 1)).toNat, by omega, by omega⟩
    · rintro ⟨n, h1, rfl⟩
      omega
  rw [e, Finset.sum_image (by intro a _ b _ hab; simpa using hab)]
  refine Finset.sum_congr rfl fun n _ => ?_
  congr 3
  unfold Int.fract
  push_cast; ring

theorem reproduces_of_moments {k : ℚ → ℚ} {R d : ℕ} (h : Moments k R d) : Reproduces k R d := by
  intro p hp x
  rw [interpolate_eq]
  have ht0 := Int.fract_nonneg x
  have ht1 := Int.fract_lt_one x
  have ev : ∀ n : ℕ, p.eval ((⌊x⌋ - R + 1 + n : ℤ) : ℚ) =
      ∑ j ∈ Finset.range (d + 1), (Polynomial.taylor x p).coeff j * ((n : ℚ) + 1 - R - Int.fract x) ^ j := by
    intro n
    have e1 : ((⌊x⌋ - R + 1 + n : ℤ) : ℚ) = ((n : ℚ) + 1 - R - Int.fract x) + x := by
      unfold Int.fract; push_cast; ring
    rw [e1, ← Polynomial.taylor_eval, Polynomial.eval_eq_sum_range' (n := d + 1)]
    rw [Polynomial.natDegree_taylor]; omega
  simp only [ev, Finset.sum_mul]
  rw [Finset.sum_comm]
  have : ∀ j ∈ Finset.range (d + 1), ∑ n ∈ Finset.range (2 * R), (Polynomial.taylor x p).coeff j *
      ((n : ℚ) + 1 - R - Int.fract x) ^ j * k |(n : ℚ) + 1 - R - Int.fract x| =
      if j = 0 then (Polynomial.taylor x p).coeff j else 0 := by
    intro j hj
    have := h _ ht0 ht1 j (by have := Finset.mem_range.1 hj; omega)
    simp only [mul_assoc]
    rw [← Finset.mul_sum, this]
    split_ifs <;> simp
  rw [Finset.sum_congr rfl this, Finset.sum_ite_eq' (Finset.range (d + 1)) 0, if_pos (by simp)]
  exact Polynomial.taylor_coeff_zero x p

theorem interpolates_of {k : ℚ → ℚ} {R : ℕ} (hR : 1 ≤ R) (h0 : k 0 = 1) (h : ∀ n : ℕ, 1 ≤ n → n ≤ R → k n = 0) :
    Interpolates k R := by
  intro p m
  unfold interpolate
  rw [Int.floor_intCast, Finset.sum_eq_single m]
  · simp [h0]
  · intro n hn hne
    rw [Finset.mem_Ioc] at hn
    obtain ⟨a, ha⟩ := Int.eq_ofNat_of_zero_le (abs_nonneg (n - m))
    have e : |(n : ℚ) - m| = (a : ℚ) := by
      have : ((|n - m| : ℤ) : ℚ) = a := by rw [ha]; simp
      rw [← this]; push_cast; rfl
    have hab : |n - m| ≤ R := by rw [abs_le]; constructor <;> omega
    have hpos : 0 < |n - m| := abs_pos.2 (by omega)
    rw [e, h a (by omega) (by omega), mul_zero]
  · intro hn
    exact absurd (Finset.mem_Ioc.2 ⟨by omega, by omega⟩) hn

end PicScale
