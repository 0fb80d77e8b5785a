import Verif.Lemmas.NeonF16Value
import Verif.Props.F16

/-! Accuracy of the f16 passes on AArch64. -/

namespace PicScale

open Spec Finset

theorem halfErr_mono {a b : ℚ} (h : a ≤ b) : halfErr a ≤ halfErr b := by
  unfold halfErr
  have := div_le_div_of_nonneg_right h (by positivity : (0 : ℚ) ≤ 2 ^ 11)
  linarith

theorem halfErr_nonneg {a : ℚ} (h : 0 ≤ a) : 0 ≤ halfErr a := by
  unfold halfErr
  positivity

theorem fullErr_nonneg {X : ℚ} (hX : 0 ≤ X) : ∀ k, 0 ≤ fullErr X k
  | 0 => le_rfl
  | k + 1 => by
    have := fullErr_nonneg hX k
    have := halfErr_nonneg (a := X + fullErr X k) (by linarith)
    unfold fullErr
    linarith

theorem fullErr_le {X : ℚ} (hX : 0 ≤ X) {k n : ℕ} (h : k ≤ n) : fullErr X k ≤ fullErr X n := by
  induction n with
  | zero => rw [Nat.le_zero.1 h]
  | succ n ih =>
    rcases Nat.lt_or_ge n k with h' | h'
    · rw [show k = n + 1 by omega]
    · have h1 := ih h'
      have h2 := fullErr_nonneg hX n
      have h3 := halfErr_nonneg (a := X + fullErr X n) (by linarith)
      show _ ≤ fullErr X n + halfErr (X + fullErr X n)
      linarith

/-- Fused multiply-adds in halves. -/
theorem halfChain_err {p w : ℕ → ℕ} {n : ℕ} {X : ℚ} (hX : ∑ k ∈ range n, |F16.dec (p k)| * |F16.dec (w k)| ≤ X)
    (hlt : X + fullErr X n < 65520) : ∀ m, m ≤ n →
    FiniteHalf (chain (fun acc a b => F16.halfVec.fma a b acc) F16.halfVec.zero p w m) ∧
    |F16.dec (chain (fun acc a b => F16.halfVec.fma a b acc) F16.halfVec.zero p w m) -
      dotSum m (fun k => F16.dec (p k)) (fun k => F16.dec (w k))| ≤ fullErr X m := by
  have hX0 : 0 ≤ X := le_trans (sum_nonneg fun k _ => mul_nonneg (abs_nonneg _) (abs_nonneg _)) hX
  intro m
  induction m with
  | zero =>
    intro _
    refine ⟨show FiniteHalf 0 from ⟨by decide, by decide⟩, ?_⟩
    show |F16.dec 0 - 0| ≤ 0
    rw [dec_zero]
    norm_num
  | succ m ih =>
    intro hm
    obtain ⟨i1, i2⟩ := ih (by omega)
    set acc := chain (fun acc a b => F16.halfVec.fma a b acc) F16.halfVec.zero p w m with hacc
    have e : chain (fun acc a b => F16.halfVec.fma a b acc) F16.halfVec.zero p w (m + 1) =
        F16.enc (F16.dec (p m) * F16.dec (w m) + F16.dec acc) := rfl
    rw [e]
    have hd : dotSum (m + 1) (fun k => F16.dec (p k)) (fun k => F16.dec (w k)) =
        dotSum m (fun k => F16.dec (p k)) (fun k => F16.dec (w k)) + F16.dec (p m) * F16.dec (w m) := by
      unfold dotSum; rw [sum_range_succ]
    have hb : |dotSum (m + 1) (fun k => F16.dec (p k)) (fun k => F16.dec (w k))| ≤ X := by
      unfold dotSum
      refine le_trans (abs_sum_le_sum_abs _ _) (le_trans ?_ hX)
      simp only [abs_mul]
      exact sum_le_sum_of_subset_of_nonneg (range_subset_range.2 hm)
        (fun _ _ _ => mul_nonneg (abs_nonneg _) (abs_nonneg _))
    set ex := dotSum (m + 1) (fun k => F16.dec (p k)) (fun k => F16.dec (w k)) with hex
    set v := F16.dec (p m) * F16.dec (w m) + F16.dec acc with hv
    have hve : |v - ex| ≤ fullErr X m := by
      have : v - ex = F16.dec acc - dotSum m (fun k => F16.dec (p k)) (fun k => F16.dec (w k)) := by rw [hv, hd]; ring
      rw [this]; exact i2
    have hva : |v| ≤ X + fullErr X m := by
      have := abs_add_le (v - ex) ex
      rw [sub_add_cancel] at this
      linarith
    have hmn := fullErr_le hX0 (show m ≤ n by omega)
    obtain ⟨r1, r2, r3⟩ := F16.enc_near (q := v) (by linarith)
    refine ⟨⟨r2, r1⟩, ?_⟩
    have h1 : halfErr |v| ≤ halfErr (X + fullErr X m) := halfErr_mono hva
    have h2 := abs_add_le (F16.dec (F16.enc v) - v) (v - ex)
    rw [sub_add_sub_cancel] at h2
    have h3 : |F16.dec (F16.enc v) - v| ≤ halfErr |v| := r3
    show _ ≤ fullErr X m + halfErr (X + fullErr X m)
    linarith

/-- One pass of a path over finite halves. -/
theorem neonPass_err (path : HalfPath) {n : ℕ} (hn : 1 ≤ n) {p : ℕ → ℕ} {w : ℕ → ℚ} {B : ℚ}
    (hfin : ∀ k, k < n → FiniteHalf (p k)) (hB : ∀ k, k < n → |F16.dec (p k)| ≤ B)
    (hlt : (∑ k ∈ range n, |F16.weightUsed path (w k)|) * B +
      neonPassErr path n ((∑ k ∈ range n, |F16.weightUsed path (w k)|) * B) < 65520) :
    FiniteHalf (F16.halfBits.neonSum F16.halfVec path p w n) ∧
    |F16.dec (F16.halfBits.neonSum F16.halfVec path p w n) -
      dotSum n (fun k => F16.dec (p k)) (fun k => F16.weightUsed path (w k))| ≤
      neonPassErr path n ((∑ k ∈ range n, |F16.weightUsed path (w k)|) * B) := by
  have hB0 : 0 ≤ B := le_trans (abs_nonneg _) (hB 0 hn)
  by_cases hf : path = .full
  · subst hf
    have hw : ∀ k, F16.weightUsed .full (w k) = F16.dec (F16.enc (w k)) := fun k => by
      unfold F16.weightUsed; rw [if_neg (by decide)]
    unfold neonPassErr at hlt ⊢
    rw [if_pos rfl] at hlt ⊢
    simp only [hw] at hlt ⊢
    exact halfChain_err (p := p) (w := fun k => F16.enc (w k)) (n := n) (by
      rw [sum_mul]
      refine sum_le_sum fun k hk => ?_
      rw [mul_comm]
      exact mul_le_mul_of_nonneg_left (hB k (mem_range.1 hk)) (abs_nonneg _)) hlt n le_rfl
  · have e : F16.halfBits.neonSum F16.halfVec path p w n = F16.halfBits.narrowX true ((HalfSum.left true).sum32
        (fun k => F16.halfBits.widenX true (p k)) (fun k => F16.weightUsed path (w k)) n) := by
      unfold HalfOps.neonSum neonHalfSum F16.weightUsed
      cases path
      · rfl
      · rfl
      · rfl
      · exact absurd rfl hf
    unfold neonPassErr at hlt ⊢
    rw [if_neg hf] at hlt ⊢
    set S := ∑ k ∈ range n, |F16.weightUsed path (w k)| with hS
    have hS0 : 0 ≤ S := sum_nonneg fun k _ => abs_nonneg _
    have hd := (dotSum_le (w := fun k => F16.weightUsed path (w k)) hB).1
    have hE := floatErr_nonneg n (mul_nonneg hS0 hB0)
    have hh := halfErr_nonneg (a := S * B + floatErr n (S * B)) (by have := mul_nonneg hS0 hB0; linarith)
    obtain ⟨r1, r2, _⟩ := pass_err true (.left true) hn (p := p) (w := fun k => F16.weightUsed path (w k))
      (V := fun k => F16.dec (p k)) (B := B) (e := 0) hfin (Or.inl rfl) hB
      (fun k _ => by rw [sub_self, abs_zero])
      (by rw [add_zero, mul_zero, add_zero]; linarith)
    rw [add_zero, mul_zero, add_zero] at r2
    rw [e]
    refine ⟨r1, le_trans r2 ?_⟩
    have := halfErr_mono (add_le_add hd (le_refl (floatErr n (S * B))))
    linarith

/-- A pass over inexact halves. -/
theorem neonPass_err2 (path : HalfPath) {n : ℕ} (hn : 1 ≤ n) {p : ℕ → ℕ} {w V : ℕ → ℚ} {B e : ℚ}
    (hfin : ∀ k, k < n → FiniteHalf (p k)) (hB : ∀ k, k < n → |V k| ≤ B) (he : ∀ k, k < n → |F16.dec (p k) - V k| ≤ e)
    (hlt : (∑ k ∈ range n, |F16.weightUsed path (w k)|) * (B + e) +
      neonPassErr path n ((∑ k ∈ range n, |F16.weightUsed path (w k)|) * (B + e)) < 65520) :
    FiniteHalf (F16.halfBits.neonSum F16.halfVec path p w n) ∧
    |F16.dec (F16.halfBits.neonSum F16.halfVec path p w n) - dotSum n V (fun k => F16.weightUsed path (w k))| ≤
      neonPassErr path n ((∑ k ∈ range n, |F16.weightUsed path (w k)|) * (B + e)) +
      (∑ k ∈ range n, |F16.weightUsed path (w k)|) * e := by
  obtain ⟨r1, r2⟩ := neonPass_err path hn hfin (B := B + e) (fun k hk => by
    have := abs_add_le (F16.dec (p k) - V k) (V k)
    rw [sub_add_cancel] at this
    have := hB k hk
    have := he k hk
    linarith) hlt
  refine ⟨r1, ?_⟩
  have h3 : |dotSum n (fun k => F16.dec (p k)) (fun k => F16.weightUsed path (w k)) -
      dotSum n V (fun k => F16.weightUsed path (w k))| ≤ (∑ k ∈ range n, |F16.weightUsed path (w k)|) * e := by
    unfold dotSum
    rw [← sum_sub_distrib, sum_mul]
    refine le_trans (abs_sum_le_sum_abs _ _) (sum_le_sum fun k hk => ?_)
    rw [← sub_mul, abs_mul, mul_comm]
    exact mul_le_mul_of_nonneg_left (he k (mem_range.1 hk)) (abs_nonneg _)
  have h4 := abs_add_le (F16.dec (F16.halfBits.neonSum F16.halfVec path p w n) -
    dotSum n (fun k => F16.dec (p k)) (fun k => F16.weightUsed path (w k)))
    (dotSum n (fun k => F16.dec (p k)) (fun k => F16.weightUsed path (w k)) - dotSum n V (fun k => F16.weightUsed path (w k)))
  rw [sub_add_sub_cancel] at h4
  linarith

end PicScale
