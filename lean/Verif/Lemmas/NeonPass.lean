import Verif.Lemmas.NeonVertical
import Verif.Lemmas.X86Abs

/-! The NEON passes: always in bounds, and their values when nothing overflows. -/

namespace PicScale

open Finset Spec

theorem kernel_w16 {q : FilterWeights ℤ} (h : I16Weights q) (x : ℕ) : W16 (q.kernel x) := by
  intro k
  unfold FilterWeights.kernel
  rw [List.getD_eq_getElem?_getD, List.getElem?_take]
  split_ifs with hk
  · rw [List.getElem?_drop, ← List.getD_eq_getElem?_getD]
    exact h.weight x k
  · simp

/-- The value of a horizontal NEON handler: `P i` is the sample of source pixel `i`. The 32-bit handler for one
channel only uses whole groups of eight taps and never the last group of a window. -/
def NeonH.value (N : ℕ) (k : NeonH) (q : FilterWeights ℤ) (x : ℕ) (P : ℕ → ℕ) : ℕ :=
  match k with
  | .scalar => fixedRound 255 (q.bound x).size (fun k => q.weight x k) (fun k => P ((q.bound x).start + k))
  | .full _ => fixedRoundDown (if N = 1 then 8 * (((q.bound x).size - 1) / 8) else (q.bound x).size)
      (fun k => q.weight x k) (fun k => P ((q.bound x).start + k))
  | .rdm => fixedLow (q.bound x).size (fun k => q.weight x k) (fun k => P ((q.bound x).start + k))

theorem sum_le_of_le {f g : ℕ → ℤ} {m n : ℕ} (h : m ≤ n) (hf : ∀ k, k < m → f k ≤ g k) (hg : ∀ k, 0 ≤ g k) :
    ∑ k ∈ range m, f k ≤ ∑ k ∈ range n, g k :=
  le_trans (sum_le_sum fun k hk => hf k (by simpa using hk))
    (sum_le_sum_of_subset_of_nonneg (range_mono h) fun i _ _ => hg i)

/-- The budget of the 32-bit handlers. -/
theorem budget32 {D : Bool} {v : ℕ → ℤ} {m n : ℕ} (hm : m ≤ n)
    (h : (∑ k ∈ range n, |v k|) * 255 + 2 ^ 14 < 2 ^ 30) :
    2 * neonRnd D + ∑ k ∈ range m, 2 * dbl D * 255 * |v k| ≤ 4294967295 := by
  rw [← mul_sum]
  have h1 : ∑ k ∈ range m, |v k| ≤ ∑ k ∈ range n, |v k| := sum_le_of_le hm (fun k _ => le_refl _) fun k => abs_nonneg _
  have h2 : 0 ≤ ∑ k ∈ range m, |v k| := sum_nonneg fun k _ => abs_nonneg _
  generalize ∑ k ∈ range m, |v k| = a at *
  generalize ∑ k ∈ range n, |v k| = c at *
  cases D
  · rw [show neonRnd false = 16383 by decide, show dbl false = 1 from rfl]
    omega
  · rw [show neonRnd true = 32767 by decide, show dbl true = 2 from rfl]
    omega

theorem budget16 {v : ℕ → ℤ} {n : ℕ} (h : ∑ k ∈ range n, (|v k| + 1) < 65472) :
    2 * 32 + ∑ k ∈ range n, rdmCost (v k) ≤ 65535 := by
  have : ∑ k ∈ range n, rdmCost (v k) ≤ ∑ k ∈ range n, (|v k| + 1) := sum_le_sum fun k _ => rdmCost_le _
  omega

section
variable {q : FilterWeights ℤ} {inn out x c : ℕ} {f : ℕ → ℕ}

theorem kernel_cost {cost : ℤ → ℤ} {m : ℕ} (hT : ValidTable q inn out) (hx : x < out) (hm : m ≤ (q.bound x).size) :
    ∑ k ∈ range m, cost ((q.kernel x).getD k 0) = ∑ k ∈ range m, cost (q.weight x k) :=
  sum_congr rfl fun k hk => by
    have : k < m := by simpa using hk
    rw [kernel_getD_lt hT hx (by omega)]

theorem kernel_term {N : ℕ} {term : ℕ → ℤ → ℤ} {m : ℕ} (hT : ValidTable q inn out) (hx : x < out)
    (hm : m ≤ (q.bound x).size) (hc : c < N) :
    ∑ k ∈ range m, term (winb N (q.bound x) f k c) ((q.kernel x).getD k 0) =
      ∑ k ∈ range m, term (f (((q.bound x).start + k) * N + c) % 256) (q.weight x k) :=
  sum_congr rfl fun k hk => by
    have : k < m := by simpa using hk
    rw [kernel_getD_lt hT hx (by omega)]
    unfold winb
    rw [if_pos ⟨by omega, hc⟩]

theorem sum_dbl (D : Bool) (m : ℕ) (p : ℕ → ℕ) (v : ℕ → ℤ) :
    ∑ k ∈ range m, dbl D * (v k * (p k : ℤ)) = dbl D * wsum m v (fun k => (p k : ℤ)) := by
  unfold wsum
  rw [mul_sum]

theorem lanes_abs {I : List ℕ} {s : List ℤ} : |(I.map fun i => s.getD i 0).sum| ≤ (I.map fun i => |s.getD i 0|).sum := by
  induction I with
  | nil => simp
  | cons i I ih =>
    simp only [List.map_cons, List.sum_cons]
    have := abs_add_le (s.getD i 0) (I.map fun i => s.getD i 0).sum
    omega

theorem sum_eq_lanes {s : List ℤ} {n : ℕ} (h : s.length = n) : ((List.range n).map fun i => s.getD i 0).sum = s.sum := by
  congr 1
  subst h
  apply List.ext_getElem (by simp)
  intro i h1 h2
  simp [List.getD_eq_getElem?_getD, List.getElem?_eq_getElem h2]

theorem NeonH.row_value {N : ℕ} (hN : 1 ≤ N ∧ N ≤ 4) {k : NeonH} (hk : k.pixels N ≠ none)
    (hT : ValidTable q inn out) (hx : x < out) (hc : c < N) (hW : I16Weights q) (hO : NoOverflow30 q out)
    (h16 : k = .rdm → NoOverflow16 q out) :
    k.row N (q.kernel x) (q.bound x) f c = k.value N q x (fun i => f (i * N + c) % 256) := by
  have w16 := kernel_w16 hW x
  have hb := winb_le N (q.bound x) f
  have hn := hT.size_pos x hx
  obtain ⟨h1, h4⟩ := hN
  cases k with
  | scalar => exact absurd rfl hk
  | full D =>
    have b30 : ∀ m, m ≤ (q.bound x).size →
        2 * neonRnd D + ∑ k ∈ range m, 2 * dbl D * 255 * |(q.kernel x).getD k 0| ≤ 4294967295 := fun m hm => by
      rw [kernel_cost (cost := fun v => 2 * dbl D * 255 * |v|) hT hx hm]
      exact budget32 hm (hO x hx)
    interval_cases N
    · have inv := planeNeonAcc_inv D (tapX_ok D) w16 hb (q.bound x).size hn (neonRnd_nonneg D) 0 (by omega)
      have hm : 8 * (((q.bound x).size - 1) / 8) ≤ (q.bound x).size := by omega
      have h2 := inv.2 (b30 _ hm)
      obtain rfl : c = 0 := by omega
      dsimp only at h2
      rw [kernel_term (term := fun p w => dbl D * (w * (p : ℤ))) hT hx hm hc, sum_dbl, sum_eq_lanes inv.1] at h2
      have ha := lanes_abs (I := List.range 4) (s := planeNeonAcc D (q.kernel x) (q.bound x).size (winb 1 (q.bound x) f))
      rw [sum_eq_lanes inv.1] at ha
      have := b30 _ hm
      show planeNarrow32 D _ = _
      rw [planeNarrow32_eq D h2.1 (by omega)]
      rfl
    · exact absurd rfl hk
    · have inv := rgbNeonAcc_inv D (tapX_ok D) w16 hb (q.bound x).size (neonRnd_nonneg D) c hc
      have h2 := (inv.2 (b30 _ (le_refl _))).1
      dsimp only at h2
      rw [kernel_term (term := fun p w => dbl D * (w * (p : ℤ))) hT hx (le_refl _) hc, sum_dbl] at h2
      simp only [List.map_cons, List.map_nil, List.sum_cons, List.sum_nil, add_zero] at h2
      show narrow32 D _ = _
      rw [h2, narrow32_eq]
      rfl
    · have inv := rgbaNeonAcc_inv D (tapX_ok D) w16 hb (q.bound x).size (neonRnd_nonneg D) c hc
      have h2 := (inv.2 (b30 _ (le_refl _))).1
      dsimp only at h2
      rw [kernel_term (term := fun p w => dbl D * (w * (p : ℤ))) hT hx (le_refl _) hc, sum_dbl] at h2
      simp only [List.map_cons, List.map_nil, List.sum_cons, List.sum_nil, add_zero] at h2
      show narrow32 D _ = _
      rw [h2, narrow32_eq]
      rfl
  | rdm =>
    have b16 : 2 * 32 + ∑ k ∈ range (q.bound x).size, rdmCost ((q.kernel x).getD k 0) ≤ 65535 := by
      rw [kernel_cost hT hx (le_refl _)]
      exact budget16 (h16 rfl x hx)
    interval_cases N
    · have inv := planeRdmAcc_inv w16 hb (q.bound x).size 0 (by omega)
      have h2 := inv.2 b16
      obtain rfl : c = 0 := by omega
      dsimp only at h2
      rw [kernel_term hT hx (le_refl _) hc, sum_eq_lanes inv.1] at h2
      have ha := lanes_abs (I := List.range 8) (s := planeRdmAcc (q.kernel x) (q.bound x).size (winb 1 (q.bound x) f))
      rw [sum_eq_lanes inv.1] at ha
      show planeNarrow16 _ = _
      rw [planeNarrow16_eq h2.1 (by omega)]
      rfl
    · have inv := cbcrRdmAcc_inv w16 hb (q.bound x).size c hc
      obtain ⟨l, h2⟩ := inv
      obtain ⟨a1, a2⟩ := h2 b16
      rw [kernel_term hT hx (le_refl _) hc] at a1
      show (cbcrRdmFinish _).getD c 0 = fixedLow _ _ _
      unfold fixedLow
      rw [← narrow16_eq, ← a1]
      generalize cbcrRdmAcc (q.kernel x) (q.bound x).size (winb 2 (q.bound x) f) = st at l a2
      match st, l with
      | [s0, s1, s2, s3, s4, s5, s6, s7], _ =>
        interval_cases c <;>
          (simp only [List.map_cons, List.map_nil, List.sum_cons, List.sum_nil, List.getD_cons_zero,
            List.getD_cons_succ, add_zero] at a2 ⊢
           have n0 := abs_nonneg s0
           have := abs_le.1 (le_refl |s0|)
           have := abs_le.1 (le_refl |s1|)
           have := abs_le.1 (le_refl |s2|)
           have := abs_le.1 (le_refl |s3|)
           have := abs_le.1 (le_refl |s4|)
           have := abs_le.1 (le_refl |s5|)
           have := abs_le.1 (le_refl |s6|)
           have := abs_le.1 (le_refl |s7|))
        · show narrow16 (i16 (i16 (s0 + s4) + i16 (s2 + s6))) = _
          rw [i16_eq_self (v := s0 + s4) (by omega) (by omega), i16_eq_self (v := s2 + s6) (by omega) (by omega),
            i16_eq_self (by omega) (by omega)]
          congr 1
          ring
        · show narrow16 (i16 (i16 (s1 + s5) + i16 (s3 + s7))) = _
          rw [i16_eq_self (v := s1 + s5) (by omega) (by omega), i16_eq_self (v := s3 + s7) (by omega) (by omega),
            i16_eq_self (by omega) (by omega)]
          congr 1
          ring
    · have inv := rgbRdmAcc_inv w16 hb (q.bound x).size c hc
      obtain ⟨l, h2⟩ := inv
      obtain ⟨a1, a2⟩ := h2 b16
      rw [kernel_term hT hx (le_refl _) hc] at a1
      show narrow16 _ = fixedLow _ _ _
      unfold fixedLow
      rw [← narrow16_eq, ← a1]
      generalize rgbRdmAcc (q.kernel x) (q.bound x).size (winb 3 (q.bound x) f) = st at l a2
      match st, l with
      | [s0, s1, s2, s3, s4, s5, s6, s7], _ =>
        have := abs_le.1 (le_refl |s0|)
        have := abs_le.1 (le_refl |s1|)
        have := abs_le.1 (le_refl |s2|)
        have := abs_le.1 (le_refl |s4|)
        have := abs_le.1 (le_refl |s5|)
        have := abs_le.1 (le_refl |s6|)
        interval_cases c <;>
          (simp only [List.map_cons, List.map_nil, List.sum_cons, List.sum_nil, List.getD_cons_zero,
            List.getD_cons_succ, add_zero, vadd16, List.take_succ_cons, List.take_zero, List.drop_succ_cons,
            List.drop_zero, List.zipWith_cons_cons, List.zipWith_nil_left] at a2 ⊢
           rw [i16_eq_self (by omega) (by omega)])
    · have inv := rgbaRdmAcc_inv w16 hb (q.bound x).size c hc
      have h2 := (inv.2 b16).1
      rw [kernel_term hT hx (le_refl _) hc] at h2
      simp only [List.map_cons, List.map_nil, List.sum_cons, List.sum_nil, add_zero] at h2
      show narrow16 _ = _
      rw [h2, narrow16_eq]
      rfl

end

end PicScale
