import Verif.Lemmas.NeonAr30Pass

/-! What the handlers of packed 10-bit pixels compute, by arithmetic. -/

namespace PicScale

open Finset Spec

/-! ### loops over groups -/

/-- The three loops over a window, where every group is a sequence of taps of a state indexed by the number of taps. -/
theorem groups_inv {g8 g4 g1 : ℕ → ℤ → ℤ} {n : ℕ} {a : ℤ} (A : ℕ → ℤ) (hn : 1 ≤ n) (h0 : A 0 = a)
    (h8 : ∀ j, j % 8 = 0 → j + 8 ≤ (n - 1) / 8 * 8 → g8 j (A j) = A (j + 8))
    (h4 : ∀ j, j % 4 = 0 → (n - 1) / 8 * 8 ≤ j → j + 4 ≤ (n - 1) / 4 * 4 → g4 j (A j) = A (j + 4))
    (h1 : ∀ j, (n - 1) / 4 * 4 ≤ j → j < n → g1 j (A j) = A (j + 1)) : groups g8 g4 g1 n a = A n := by
  have l8 : loopEnd 8 8 n n 0 = (n - 1) / 8 * 8 := by
    rw [loopEnd_val (by omega) n 0 (by omega) (by omega)]; omega
  have l4 : loopEnd 4 4 n n ((n - 1) / 8 * 8) = (n - 1) / 4 * 4 := by
    rw [loopEnd_val (by omega) n _ (by omega) (by omega)]; omega
  have l1 : loopEnd 0 1 n n ((n - 1) / 4 * 4) = n := loopEnd_last (by omega)
  have e8 := (pureLoop_inv (P := fun j s => j % 8 = 0 ∧ s = A j) (margin := 8) (step := 8) (size := n) (g := g8) (by omega)
    (fun j s hj h => ⟨by omega, by rw [h.2, h8 j h.1 (by omega)]⟩) n 0 a (by omega) ⟨rfl, h0.symm⟩).1.2
  rw [l8] at e8
  have e4 := (pureLoop_inv (P := fun j s => j % 4 = 0 ∧ (n - 1) / 8 * 8 ≤ j ∧ s = A j) (margin := 4) (step := 4) (size := n) (g := g4)
    (by omega) (fun j s hj h => ⟨by omega, by omega, by rw [h.2.2, h4 j h.1 h.2.1 (by omega)]⟩) n ((n - 1) / 8 * 8) _
    (by omega) ⟨by omega, by omega, e8⟩).1.2.2
  rw [l4] at e4
  have e1 := (pureLoop_inv (P := fun j s => (n - 1) / 4 * 4 ≤ j ∧ s = A j) (margin := 0) (step := 1) (size := n) (g := g1)
    (by omega) (fun j s hj h => ⟨by omega, by rw [h.2, h1 j h.1 (by omega)]⟩) n ((n - 1) / 4 * 4) _
    (by omega) ⟨by omega, e4⟩).1.2
  rw [l1] at e1
  unfold groups
  rw [l8, l4, e1]

theorem rowN_taps (w : ℕ → ℤ) (p : ℕ → ℕ) {n : ℕ} (hn : 1 ≤ n) :
    rowN w p n = narrowQ 10 (tapsF tapQ NEON16_ROUNDING w (fun k => p (tapNeon n k)) n) := by
  unfold rowN
  refine congrArg _ (groups_inv (fun j => tapsF tapQ NEON16_ROUNDING w (fun k => p (tapNeon n k)) j) hn rfl
    (fun j hj h => ?_) (fun j hj hl h => ?_) (fun j hl h => ?_))
  · have t : ∀ i, i < 8 → tapNeon n (j + i) = j + [0, 5, 1, 5, 2, 6, 3, 7].getD i 0 := by
      intro i hi
      unfold tapNeon
      rw [if_pos (by omega), show (j + i) / 8 * 8 = j by omega, show (j + i) % 8 = i by omega]
    have t0 := t 0 (by omega)
    rw [Nat.add_zero] at t0
    simp only [n8, tapsF, t0, t 1 (by omega), t 2 (by omega), t 3 (by omega), t 4 (by omega), t 5 (by omega), t 6 (by omega), t 7 (by omega)]
    rfl
  · have t : ∀ i, i < 4 → tapNeon n (j + i) = j + [0, 3, 2, 3].getD i 0 := by
      intro i hi
      unfold tapNeon
      rw [if_neg (by omega), if_pos (by omega), show (j + i) / 4 * 4 = j by omega, show (j + i) % 4 = i by omega]
    have t0 := t 0 (by omega)
    rw [Nat.add_zero] at t0
    simp only [n4, tapsF, t0, t 1 (by omega), t 2 (by omega), t 3 (by omega)]
    rfl
  · have t : tapNeon n j = j := by
      unfold tapNeon
      rw [if_neg (by omega), if_neg (by omega)]
    simp only [n1, tapsF, t]

theorem tapNeon_lt {n k : ℕ} (hk : k < n) : tapNeon n k < n := by
  unfold tapNeon
  split_ifs with h1 h2
  · have : ∀ i < 8, [0, 5, 1, 5, 2, 6, 3, 7].getD i 0 < 8 := by decide
    have := this (k % 8) (by omega)
    omega
  · have : ∀ i < 4, [0, 3, 2, 3].getD i 0 < 4 := by decide
    have := this (k % 4) (by omega)
    omega
  · exact hk

theorem tapNeon_small {n k : ℕ} (hn : n ≤ 4) : tapNeon n k = k := by
  unfold tapNeon
  rw [if_neg (by omega), if_neg (by omega)]

theorem tapShuffled_lt {n k : ℕ} (hk : k < n) : tapShuffled n k < n := by
  unfold tapShuffled
  split_ifs with h1
  · have : ∀ i < 8, [0, 4, 1, 5, 2, 6, 3, 7].getD i 0 < 8 := by decide
    have := this (k % 8) (by omega)
    omega
  · exact hk

theorem tapShuffled_small {n k : ℕ} (hn : n ≤ 8) : tapShuffled n k = k := by
  unfold tapShuffled
  rw [if_neg (by omega)]

/-! ### without overflow -/

theorem tapsF_noOverflow {w : ℕ → ℤ} {p : ℕ → ℕ} : ∀ {n : ℕ}, (∀ k, k < n → -32768 ≤ w k ∧ w k ≤ 32767) →
    (∀ k, k < n → p k ≤ 1023) → (∑ k ∈ range n, |w k|) * 1023 + 2 ^ 14 < 2 ^ 30 →
    tapsF tapQ NEON16_ROUNDING w p n = 32767 + 2 * wsum n w fun k => (p k : ℤ) := by
  intro n
  induction n with
  | zero => intro _ _ _; rfl
  | succ n ih =>
    intro hw hp hO
    rw [sum_range_succ] at hO
    have ha := abs_nonneg (w n)
    have hb := wsum_abs_le (n := n + 1) (w := w) (p := fun k => (p k : ℤ)) (M := 1023)
      (fun k hk => ⟨Int.natCast_nonneg _, by exact_mod_cast hp k hk⟩)
    rw [sum_range_succ, wsum_succ] at hb
    push_cast at hb
    have hb2 := abs_le.1 hb
    have hwn := hw n (by omega)
    have hpn := hp n (by omega)
    rw [wsum_succ]
    unfold tapsF
    rw [ih (fun k hk => hw k (by omega)) (fun k hk => hp k (by omega)) (by omega)]
    unfold tapQ vqdmlal1
    rw [i16_eq_self (v := (p n : ℤ)) (by omega) (by omega), i16_eq_self (v := w n) (by omega) (by omega)]
    have h1 : (p n : ℤ) * w n ≤ 1023 * 32767 := by nlinarith
    have h2 : -(1023 * 32768) ≤ (p n : ℤ) * w n := by nlinarith
    have e : 2 * (p n : ℤ) * w n = 2 * (w n * (p n : ℤ)) := by ring
    have e' : (p n : ℤ) * w n = w n * (p n : ℤ) := by ring
    rw [e]
    rw [e'] at h1 h2
    generalize w n * (p n : ℤ) = v at *
    unfold sat32
    omega

theorem narrowQ_down (S : ℤ) : narrowQ 10 (32767 + 2 * S) = clamp 1023 (fixDown S) := by
  rw [narrowQ_eq (by omega), fixRoundDown_eq]
  rfl

theorem colN_eq {w : ℕ → ℤ} {p : ℕ → ℕ} {n : ℕ} (hw : ∀ k, k < n → -32768 ≤ w k ∧ w k ≤ 32767)
    (hp : ∀ k, k < n → p k ≤ 1023) (hO : (∑ k ∈ range n, |w k|) * 1023 + 2 ^ 14 < 2 ^ 30) : colN w p n = fixedDown 1023 n w p := by
  unfold colN
  rw [tapsF_noOverflow hw hp hO, narrowQ_down]
  rfl

theorem rowN_eq {w : ℕ → ℤ} {p : ℕ → ℕ} {n : ℕ} (hn : 1 ≤ n) (hw : ∀ k, k < n → -32768 ≤ w k ∧ w k ≤ 32767)
    (hp : ∀ k, k < n → p k ≤ 1023) (hO : (∑ k ∈ range n, |w k|) * 1023 + 2 ^ 14 < 2 ^ 30) :
    rowN w p n = fixedDown 1023 n w fun k => p (tapNeon n k) := by
  rw [rowN_taps w p hn, tapsF_noOverflow hw (fun k hk => hp _ (tapNeon_lt hk)) hO, narrowQ_down]
  rfl

/-! ### rdm -/

theorem nearestPow_int (s : ℕ) (hs : 1 ≤ s) (v : ℤ) : nearestPow s v = (v + 2 ^ (s - 1)) / 2 ^ s := by
  obtain ⟨m, rfl⟩ : ∃ m, s = m + 1 := ⟨s - 1, by omega⟩
  unfold nearestPow
  have e : ((v : ℚ) / 2 ^ (m + 1) + 1 / 2) = ((v + 2 ^ m : ℤ) : ℚ) / ((2 ^ (m + 1) : ℕ) : ℚ) := by
    push_cast
    rw [pow_succ]
    field_simp
  rw [e, Rat.floor_intCast_div_natCast]
  norm_num

theorem sat16_id {v : ℤ} (h1 : -32768 ≤ v) (h2 : v ≤ 32767) : sat16 v = v := by unfold sat16; omega

section
variable {p : ℕ} {w : ℤ}

theorem prod_bounds (hp : p ≤ 1023) (hw : -32768 ≤ w ∧ w ≤ 32767) :
    -(1023 * 32768) ≤ w * (p : ℤ) ∧ w * (p : ℤ) ≤ 1023 * 32767 := by
  have : (p : ℤ) ≤ 1023 := by exact_mod_cast hp
  constructor <;> nlinarith [Int.natCast_nonneg p]

theorem tapRdm4_eq (hp : p ≤ 1023) (hw : -32768 ≤ w ∧ w ≤ 32767) (a : ℤ) :
    tapRdm 4 a p w = sat16 (a + nearestPow 11 (w * (p : ℤ))) := by
  unfold tapRdm vqrdmlah1
  rw [i16_eq_self (v := (p : ℤ) * 2 ^ 4) (by omega) (by norm_num; omega), i16_eq_self (v := w) (by omega) (by omega),
    nearestPow_int 11 (by norm_num), Int.shiftRight_eq_div_pow]
  have e : 2 * ((p : ℤ) * 2 ^ 4 * w) = 32 * (w * (p : ℤ)) := by ring
  rw [e]
  generalize w * (p : ℤ) = v
  congr 1
  norm_num
  omega

theorem mulRdm4_eq (hp : p ≤ 1023) (hw : -32768 ≤ w ∧ w ≤ 32767) : mulRdm 4 p w = sat16 (nearestPow 11 (w * (p : ℤ))) := by
  have := tapRdm4_eq hp hw 0
  rw [zero_add] at this
  rw [← this]
  unfold mulRdm tapRdm vqrdmlah1
  rw [zero_mul, zero_add]

theorem tapRdm5_eq (hp : p ≤ 1023) (hw : -32768 ≤ w ∧ w ≤ 32767) (a : ℤ) :
    tapRdm 5 a p w = sat16 (a + nearestPow 10 (w * (p : ℤ))) := by
  unfold tapRdm vqrdmlah1
  rw [i16_eq_self (v := (p : ℤ) * 2 ^ 5) (by omega) (by norm_num; omega), i16_eq_self (v := w) (by omega) (by omega),
    nearestPow_int 10 (by norm_num), Int.shiftRight_eq_div_pow]
  have e : 2 * ((p : ℤ) * 2 ^ 5 * w) = 64 * (w * (p : ℤ)) := by ring
  rw [e]
  generalize w * (p : ℤ) = v
  congr 1
  norm_num
  omega

theorem mulRdm5_eq (hp : p ≤ 1023) (hw : -32768 ≤ w ∧ w ≤ 32767) : mulRdm 5 p w = sat16 (nearestPow 10 (w * (p : ℤ))) := by
  have := tapRdm5_eq hp hw 0
  rw [zero_add] at this
  rw [← this]
  unfold mulRdm tapRdm vqrdmlah1
  rw [zero_mul, zero_add]

end

theorem abs_two (v : ℤ) : v ≤ |v| ∧ -|v| ≤ v ∧ 0 ≤ |v| := ⟨le_abs_self v, neg_abs_le v, abs_nonneg v⟩

/-- A rounded product is at most its exact size plus a half. -/
theorem near_abs {s : ℕ} (hs : 1 ≤ s) {w : ℤ} {p : ℕ} (hp : p ≤ 1023) :
    |nearestPow s (w * (p : ℤ))| * 2 ^ s ≤ 1023 * |w| + 2 ^ (s - 1) := by
  obtain ⟨m, rfl⟩ : ∃ m, s = m + 1 := ⟨s - 1, by omega⟩
  rw [nearestPow_int _ hs]
  have hb : |w * (p : ℤ)| ≤ 1023 * |w| := by
    rw [abs_mul, Nat.abs_cast, mul_comm]
    exact mul_le_mul_of_nonneg_right (by exact_mod_cast hp) (abs_nonneg w)
  have hb2 := abs_le.1 hb
  generalize w * (p : ℤ) = v at *
  have hpos : (0 : ℤ) < 2 ^ m := by positivity
  rw [Nat.add_sub_cancel, pow_succ]
  generalize (2 : ℤ) ^ m = k at *
  have e := Int.emod_add_mul_ediv (v + k) (k * 2)
  have h0 := Int.emod_nonneg (v + k) (show k * 2 ≠ 0 by omega)
  have h1 := Int.emod_lt_of_pos (v + k) (show 0 < k * 2 by omega)
  generalize (v + k) / (k * 2) = d at *
  generalize (v + k) % (k * 2) = r at *
  rw [← abs_of_pos (show 0 < k * 2 by omega), ← abs_mul]
  have e2 : k * 2 * d = d * (k * 2) := mul_comm _ _
  rw [e2] at e
  refine abs_le.2 ⟨by omega, by omega⟩

theorem near_sum_abs {s n : ℕ} (hs : 1 ≤ s) {w : ℕ → ℤ} {p : ℕ → ℕ} (hp : ∀ k, k < n → p k ≤ 1023) :
    (∑ k ∈ range n, |nearestPow s (w k * (p k : ℤ))|) * 2 ^ s ≤ 1023 * (∑ k ∈ range n, |w k|) + 2 ^ (s - 1) * n := by
  rw [sum_mul, mul_sum, mul_comm (2 ^ (s - 1) : ℤ) (n : ℤ)]
  have : (n : ℤ) * 2 ^ (s - 1) = ∑ _k ∈ range n, (2 : ℤ) ^ (s - 1) := by rw [sum_const, card_range, nsmul_eq_mul]
  rw [this, ← sum_add_distrib]
  exact sum_le_sum fun k hk => near_abs hs (hp k (by simpa using hk))

theorem accR_eq {w : ℕ → ℤ} {p : ℕ → ℕ} : ∀ {n : ℕ}, (∀ k, k < n → -32768 ≤ w k ∧ w k ≤ 32767) →
    (∀ k, k < n → p k ≤ 1023) → (∑ k ∈ range n, |nearestPow 10 (w k * (p k : ℤ))|) ≤ 32767 →
    accR w p n = ∑ k ∈ range n, nearestPow 10 (w k * (p k : ℤ))
  | 0, _, _, _ => rfl
  | 1, hw, hp, hB => by
    simp only [sum_range_succ, range_zero, sum_empty, zero_add] at hB ⊢
    have := abs_two (nearestPow 10 (w 0 * (p 0 : ℤ)))
    unfold accR
    rw [mulRdm5_eq (hp 0 (by omega)) (hw 0 (by omega))]
    exact sat16_id (by omega) (by omega)
  | n + 2, hw, hp, hB => by
    rw [sum_range_succ] at hB ⊢
    have ha := abs_two (nearestPow 10 (w (n + 1) * (p (n + 1) : ℤ)))
    have hs := abs_sum_le_sum_abs (fun k => nearestPow 10 (w k * (p k : ℤ))) (range (n + 1))
    have hs2 := abs_two (∑ k ∈ range (n + 1), nearestPow 10 (w k * (p k : ℤ)))
    unfold accR
    rw [accR_eq (n := n + 1) (fun k hk => hw k (by omega)) (fun k hk => hp k (by omega)) (by omega),
      tapRdm5_eq (hp _ (by omega)) (hw _ (by omega))]
    exact sat16_id (by omega) (by omega)

theorem narrowRdm5_eq (S : ℤ) : narrowRdm5 S = clamp 1023 (nearestPow 5 S) := by
  rw [nearestPow_int 5 (by norm_num)]
  unfold narrowRdm5 clamp
  rw [Int.shiftRight_eq_div_pow]
  norm_num
  omega

/-- No partial sum of the `rdm` column handler can leave `i16`. -/
def Fits32 (n : ℕ) (w : ℕ → ℤ) : Prop := 1023 * (∑ k ∈ range n, |w k|) + 512 * n ≤ 32767 * 1024
/-- No partial sum of the `rdm` row handler can leave `i16`. -/
def Fits16 (n : ℕ) (w : ℕ → ℤ) : Prop := 1023 * (∑ k ∈ range n, |w k|) + 1024 * n + 8 * 2048 ≤ 32767 * 2048

theorem colR_eq {w : ℕ → ℤ} {p : ℕ → ℕ} {n : ℕ} (hw : ∀ k, k < n → -32768 ≤ w k ∧ w k ≤ 32767)
    (hp : ∀ k, k < n → p k ≤ 1023) (hO : Fits32 n w) : colR w p n = fixedThirtySecond 1023 n w p := by
  unfold colR fixedThirtySecond
  have := near_sum_abs (s := 10) (by norm_num) (w := w) hp
  norm_num at this
  unfold Fits32 at hO
  rw [accR_eq hw hp (by omega), narrowRdm5_eq]

theorem narrowRdm_eq (S : ℤ) : narrowRdm (8 + S) = clamp 1023 (nearestPow 4 S) := by
  rw [nearestPow_int 4 (by norm_num)]
  unfold narrowRdm clamp
  rw [Int.shiftRight_eq_div_pow]
  norm_num
  omega

theorem rowR_eq {w : ℕ → ℤ} {p : ℕ → ℕ} {n : ℕ} (hn : 1 ≤ n) (hw : ∀ k, k < n → -32768 ≤ w k ∧ w k ≤ 32767)
    (hp : ∀ k, k < n → p k ≤ 1023) (hO : Fits16 n w) :
    rowR w p n = fixedSixteenth 1023 n w fun k => p (tapShuffled n k) := by
  have hp' : ∀ k, k < n → p (tapShuffled n k) ≤ 1023 := fun k hk => hp _ (tapShuffled_lt hk)
  have hN := near_sum_abs (s := 11) (by norm_num) (w := w) hp'
  norm_num at hN
  unfold Fits16 at hO
  let N : ℕ → ℤ := fun k => nearestPow 11 (w k * (p (tapShuffled n k) : ℤ))
  have hB : ∑ k ∈ range n, |N k| ≤ 32759 := by simp only [N]; omega
  have part : ∀ j, j ≤ n → |∑ k ∈ range j, N k| ≤ ∑ k ∈ range j, |N k| := fun j _ => abs_sum_le_sum_abs _ _
  have mono : ∀ j, j ≤ n → ∑ k ∈ range j, |N k| ≤ 32759 := fun j hj =>
    le_trans (sum_le_sum_of_subset_of_nonneg (range_mono hj) fun _ _ _ => abs_nonneg _) hB
  have key : groups (r8 w p) (r4 w p) (r1 w p) n 8 = 8 + ∑ k ∈ range n, N k := by
    refine groups_inv (fun j => 8 + ∑ k ∈ range j, N k) hn (by simp) (fun j hj h => ?_) (fun j hj hl h => ?_) (fun j hl h => ?_)
    · have t : ∀ i, i < 8 → tapShuffled n (j + i) = j + [0, 4, 1, 5, 2, 6, 3, 7].getD i 0 := by
        intro i hi
        unfold tapShuffled
        rw [if_pos (by omega), show (j + i) / 8 * 8 = j by omega, show (j + i) % 8 = i by omega]
      have f : ∀ i v, i < 8 → [0, 4, 1, 5, 2, 6, 3, 7].getD i 0 = v → nearestPow 11 (w (j + i) * (p (j + v) : ℤ)) = N (j + i) := by
        intro i v hi hv
        simp only [N]
        rw [t i hi, hv]
      have f0 := f 0 0 (by omega) rfl
      have f1 := f 1 4 (by omega) rfl
      have f2 := f 2 1 (by omega) rfl
      have f3 := f 3 5 (by omega) rfl
      have f4 := f 4 2 (by omega) rfl
      have f5 := f 5 6 (by omega) rfl
      have f6 := f 6 3 (by omega) rfl
      have f7 := f 7 7 (by omega) rfl
      simp only [Nat.add_zero] at f0
      have m := mono (j + 8) (by omega)
      have pj := abs_le.1 (part j (by omega))
      simp only [sum_range_succ, Nat.add_assoc, Nat.reduceAdd] at m ⊢
      have ab := fun i => abs_two (N (j + i))
      have a0 := abs_two (N j)
      have a1 := ab 1
      have a2 := ab 2
      have a3 := ab 3
      have a4 := ab 4
      have a5 := ab 5
      have a6 := ab 6
      have a7 := ab 7
      have hw0 := hw j (by omega)
      have hp0 := hp j (by omega)
      have hws := fun i (hi : i < 8) => hw (j + i) (by omega)
      have hps := fun i (hi : i < 8) => hp (j + i) (by omega)
      unfold r8
      rw [mulRdm4_eq (hps 1 (by omega)) (hws 2 (by omega)), f2, sat16_id (v := N (j + 2)) (by omega) (by omega),
        tapRdm4_eq hp0 hw0, f0, sat16_id (v := N (j + 2) + N j) (by omega) (by omega),
        tapRdm4_eq (hps 3 (by omega)) (hws 6 (by omega)), f6, sat16_id (v := N (j + 2) + N j + N (j + 6)) (by omega) (by omega),
        tapRdm4_eq (hps 2 (by omega)) (hws 4 (by omega)), f4,
        sat16_id (v := N (j + 2) + N j + N (j + 6) + N (j + 4)) (by omega) (by omega),
        mulRdm4_eq (hps 5 (by omega)) (hws 3 (by omega)), f3, sat16_id (v := N (j + 3)) (by omega) (by omega),
        tapRdm4_eq (hps 4 (by omega)) (hws 1 (by omega)), f1, sat16_id (v := N (j + 3) + N (j + 1)) (by omega) (by omega),
        tapRdm4_eq (hps 7 (by omega)) (hws 7 (by omega)), f7, sat16_id (v := N (j + 3) + N (j + 1) + N (j + 7)) (by omega) (by omega),
        tapRdm4_eq (hps 6 (by omega)) (hws 5 (by omega)), f5,
        sat16_id (v := N (j + 3) + N (j + 1) + N (j + 7) + N (j + 5)) (by omega) (by omega)]
      rw [i16_eq_self (v := 8 + ∑ k ∈ range j, N k + _) (by omega) (by omega), i16_eq_self (by omega) (by omega)]
      ring
    · have t : ∀ i, i < 4 → tapShuffled n (j + i) = j + i := by
        intro i hi
        unfold tapShuffled
        rw [if_neg (by omega)]
      have f : ∀ i, i < 4 → nearestPow 11 (w (j + i) * (p (j + i) : ℤ)) = N (j + i) := by
        intro i hi
        simp only [N]
        rw [t i hi]
      have f0 := f 0 (by omega)
      have f1 := f 1 (by omega)
      have f2 := f 2 (by omega)
      have f3 := f 3 (by omega)
      simp only [Nat.add_zero] at f0
      have m := mono (j + 4) (by omega)
      have pj := abs_le.1 (part j (by omega))
      simp only [sum_range_succ, Nat.add_assoc, Nat.reduceAdd] at m ⊢
      have ab := fun i => abs_two (N (j + i))
      have a0 := abs_two (N j)
      have a1 := ab 1
      have a2 := ab 2
      have a3 := ab 3
      have hw0 := hw j (by omega)
      have hp0 := hp j (by omega)
      have hws := fun i (hi : i < 4) => hw (j + i) (by omega)
      have hps := fun i (hi : i < 4) => hp (j + i) (by omega)
      unfold r4
      rw [mulRdm4_eq (hps 2 (by omega)) (hws 2 (by omega)), f2, sat16_id (v := N (j + 2)) (by omega) (by omega),
        tapRdm4_eq hp0 hw0, f0, sat16_id (v := N (j + 2) + N j) (by omega) (by omega),
        mulRdm4_eq (hps 3 (by omega)) (hws 3 (by omega)), f3, sat16_id (v := N (j + 3)) (by omega) (by omega),
        tapRdm4_eq (hps 1 (by omega)) (hws 1 (by omega)), f1, sat16_id (v := N (j + 3) + N (j + 1)) (by omega) (by omega)]
      rw [i16_eq_self (v := 8 + ∑ k ∈ range j, N k + _) (by omega) (by omega), i16_eq_self (by omega) (by omega)]
      ring
    · have t : tapShuffled n j = j := by
        unfold tapShuffled
        rw [if_neg (by omega)]
      have f0 : nearestPow 11 (w j * (p j : ℤ)) = N j := by simp only [N]; rw [t]
      have m := mono (j + 1) (by omega)
      have pj := abs_le.1 (part j (by omega))
      rw [sum_range_succ] at m ⊢
      have a0 := abs_two (N j)
      unfold r1
      rw [tapRdm4_eq (hp j h) (hw j h), f0, sat16_id (by omega) (by omega)]
      ring
  unfold rowR fixedSixteenth
  rw [key, narrowRdm_eq]

/-! ### accuracy -/

theorem near_sum_err {s n : ℕ} (hs : 1 ≤ s) (w : ℕ → ℤ) (p : ℕ → ℕ) :
    |2 ^ s * (∑ k ∈ range n, nearestPow s (w k * (p k : ℤ))) - wsum n w fun k => (p k : ℤ)| ≤ 2 ^ (s - 1) * n := by
  unfold wsum
  rw [mul_sum, ← sum_sub_distrib]
  refine le_trans (abs_sum_le_sum_abs _ _) ?_
  have : (2 : ℤ) ^ (s - 1) * n = ∑ _k ∈ range n, (2 : ℤ) ^ (s - 1) := by rw [sum_const, card_range, nsmul_eq_mul, mul_comm]
  rw [this]
  refine sum_le_sum fun k _ => ?_
  obtain ⟨m, rfl⟩ : ∃ m, s = m + 1 := ⟨s - 1, by omega⟩
  rw [nearestPow_int _ hs, Nat.add_sub_cancel, pow_succ]
  generalize w k * (p k : ℤ) = v
  have hpos : (0 : ℤ) < 2 ^ m := by positivity
  generalize (2 : ℤ) ^ m = k at *
  have e := Int.emod_add_mul_ediv (v + k) (k * 2)
  have h0 := Int.emod_nonneg (v + k) (show k * 2 ≠ 0 by omega)
  have h1 := Int.emod_lt_of_pos (v + k) (show 0 < k * 2 by omega)
  generalize k * 2 * ((v + k) / (k * 2)) = d at *
  generalize (v + k) % (k * 2) = r at *
  exact abs_le.2 ⟨by omega, by omega⟩

theorem clamp_lip {hi : ℕ} {a b : ℤ} (h1 : a ≤ b + 1) (h2 : b ≤ a + 1) :
    clamp hi a ≤ clamp hi b + 1 ∧ clamp hi b ≤ clamp hi a + 1 := by
  unfold clamp
  omega

theorem fixRound_near (v : ℤ) : fixRound v = nearestPow 15 v := by
  unfold fixRound nearestPow
  norm_num

theorem thirtySecond_err {n : ℕ} (hn : n ≤ 64) (w : ℕ → ℤ) (p : ℕ → ℕ) :
    fixedThirtySecond 1023 n w p ≤ fixedRound 1023 n w p + 1 ∧ fixedRound 1023 n w p ≤ fixedThirtySecond 1023 n w p + 1 := by
  unfold fixedThirtySecond fixedRound
  have h := abs_le.1 (near_sum_err (s := 10) (by norm_num) (n := n) w p)
  rw [fixRound_near, nearestPow_int 15 (by norm_num), nearestPow_int 5 (by norm_num)]
  norm_num at h ⊢
  generalize ∑ k ∈ range n, nearestPow 10 (w k * (p k : ℤ)) = T at *
  generalize wsum n w (fun k => (p k : ℤ)) = S at *
  apply clamp_lip <;> omega

theorem sixteenth_err {n : ℕ} (hn : n ≤ 32) (w : ℕ → ℤ) (p : ℕ → ℕ) :
    fixedSixteenth 1023 n w p ≤ fixedRound 1023 n w p + 1 ∧ fixedRound 1023 n w p ≤ fixedSixteenth 1023 n w p + 1 := by
  unfold fixedSixteenth fixedRound
  have h := abs_le.1 (near_sum_err (s := 11) (by norm_num) (n := n) w p)
  rw [fixRound_near, nearestPow_int 15 (by norm_num), nearestPow_int 4 (by norm_num)]
  norm_num at h ⊢
  generalize ∑ k ∈ range n, nearestPow 11 (w k * (p k : ℤ)) = T at *
  generalize wsum n w (fun k => (p k : ℤ)) = S at *
  apply clamp_lip <;> omega

end PicScale
