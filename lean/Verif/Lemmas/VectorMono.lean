import Verif.Props.Resize
import Verif.Props.X86
import Verif.Props.Neon
import Verif.Props.WeightBounds

/-! Monotonicity of the vector handlers' values in the samples, for tables without negative weights. -/

namespace PicScale

open Finset F32 Spec

theorem lowTerm_mono {p p' : ℕ} {w : ℤ} (hw : 0 ≤ w) (h : p ≤ p') : lowTerm p w ≤ lowTerm p' w := by
  unfold lowTerm
  apply Int.floor_le_floor
  have h1 : ((257 * p / 4 : ℕ) : ℚ) ≤ ((257 * p' / 4 : ℕ) : ℚ) := by
    exact_mod_cast Nat.div_le_div_right (Nat.mul_le_mul_left 257 h)
  have h2 : (0 : ℚ) ≤ w := by exact_mod_cast hw
  have := mul_le_mul_of_nonneg_right h1 h2
  linarith

theorem fixedLow_mono {n : ℕ} {w : ℕ → ℤ} {p p' : ℕ → ℕ} (hw : ∀ k, 0 ≤ w k)
    (hp : ∀ k, k < n → p k ≤ p' k) : fixedLow n w p ≤ fixedLow n w p' := by
  unfold fixedLow
  apply clamp_mono
  apply Int.floor_le_floor
  have : ∑ k ∈ range n, lowTerm (p k) (w k) ≤ ∑ k ∈ range n, lowTerm (p' k) (w k) :=
    sum_le_sum fun k hk => lowTerm_mono (hw k) (hp k (by simpa using hk))
  have : ((∑ k ∈ range n, lowTerm (p k) (w k) : ℤ) : ℚ) ≤ ((∑ k ∈ range n, lowTerm (p' k) (w k) : ℤ) : ℚ) := by
    exact_mod_cast this
  linarith

theorem wsum_mono {n : ℕ} {w : ℕ → ℤ} {p p' : ℕ → ℕ} (hw : ∀ k, 0 ≤ w k)
    (hp : ∀ k, k < n → p k ≤ p' k) : wsum n w (fun k => (p k : ℤ)) ≤ wsum n w (fun k => (p' k : ℤ)) :=
  sum_le_sum fun k hk => mul_le_mul_of_nonneg_left (Int.ofNat_le.2 (hp k (by simpa using hk))) (hw k)

theorem fixedRoundDown_mono {n : ℕ} {w : ℕ → ℤ} {p p' : ℕ → ℕ} (hw : ∀ k, 0 ≤ w k)
    (hp : ∀ k, k < n → p k ≤ p' k) : fixedRoundDown n w p ≤ fixedRoundDown n w p' := by
  unfold fixedRoundDown fixRoundDown
  apply clamp_mono
  apply Int.ceil_le_ceil
  have : ((wsum n w (fun k => (p k : ℤ)) : ℤ) : ℚ) ≤ wsum n w (fun k => (p' k : ℤ)) := by
    exact_mod_cast wsum_mono hw hp
  linarith

/-- The samples of `P'` are bytes at least those of `P`, up to `n`. -/
structure Above (n : ℕ) (P P' : ℕ → ℕ) : Prop where
  lo : ∀ i, P i ≤ 255
  hi : ∀ i, P' i ≤ 255
  le : ∀ i, i < n → P i ≤ P' i

theorem lowMachine_mono {n : ℕ} {w : ℕ → ℤ} {p p' : ℕ → ℕ} (h0 : ∀ k, 0 ≤ w k) (hw : ∀ k, k < n → -32768 ≤ w k ∧ w k ≤ 32767)
    (hb : ∑ k ∈ range n, (|w k| + 1) < 65472) (hp : ∀ k, p k ≤ 255) (hp' : ∀ k, p' k ≤ 255)
    (h : ∀ k, k < n → p k ≤ p' k) : lowMachine n w p ≤ lowMachine n w p' := by
  unfold lowMachine
  rw [low_exact hw hb fun k _ => hp k, low_exact hw hb fun k _ => hp' k]
  exact fixedLow_mono h0 h

theorem VKernel.value_mono {k : VKernel} {q : FilterWeights ℤ} {inn out len y p : ℕ} {P P' : ℕ → ℕ}
    (T : ValidTable q inn out) (hy : y < out) (h0 : ∀ i j, 0 ≤ q.weight i j) (hW : I16Weights q)
    (h16 : k = .sseLp ∨ k = .avxLp → NoOverflow16 q out) (A : Above inn P P') :
    k.value q len y p P ≤ k.value q len y p P' := by
  have hin := T.inside y hy
  have hp : ∀ j, j < (q.bound y).size → P ((q.bound y).start + j) ≤ P' ((q.bound y).start + j) :=
    fun j hj => A.le _ (by omega)
  cases k with
  | scalar => exact fixedFloor_mono (h0 y) hp
  | avx => exact fixedRound_mono (h0 y) hp
  | sse =>
    show (if _ then _ else _) ≤ (if _ then _ else _)
    split_ifs
    · apply clamp_mono
      have := wsum_mono (h0 y) hp
      linarith
    · exact fixedRound_mono (h0 y) hp
  | sseLp => exact lowMachine_mono (h0 y) (fun k _ => hW.weight y k) (h16 (Or.inl rfl) y hy) (fun _ => A.lo _) (fun _ => A.hi _) hp
  | avxLp => exact lowMachine_mono (h0 y) (fun k _ => hW.weight y k) (h16 (Or.inr rfl) y hy) (fun _ => A.lo _) (fun _ => A.hi _) hp

/-- The low precision RGBA handler uses the weight of the next tap for the alpha of tap 4 of each block of 8
but the last; its accumulator cannot overflow with those weights either. -/
def AlphaFits (q : FilterWeights ℤ) (x : ℕ) : Prop :=
  (q.bound x).size ≤ 8 ∨
    ∑ k ∈ range (q.bound x).size, (|q.weight x k| + 1 + if k % 8 = 5 then |q.weight x k| else 0) < 65472

theorem sum_shift_le (g : ℕ → ℤ) (hg : ∀ k, 0 ≤ g k) (n : ℕ) :
    ∑ k ∈ range n, (if k + 1 < n then g (k + 1) else 0) ≤ ∑ k ∈ range n, g k := by
  cases n with
  | zero => simp
  | succ n =>
    rw [sum_range_succ, if_neg (by omega), add_zero, sum_range_succ']
    have : ∑ k ∈ range n, (if k + 1 < n + 1 then g (k + 1) else 0) = ∑ k ∈ range n, g (k + 1) :=
      sum_congr rfl fun k hk => by rw [if_pos (by have := mem_range.1 hk; omega)]
    rw [this]
    have := hg 0
    omega

/-- The weights the alpha lane really uses. -/
def wLane (q : FilterWeights ℤ) (x c k : ℕ) : ℤ :=
  q.weight x (if c = 3 ∧ k % 8 = 4 ∧ 8 * (k / 8) + 8 < (q.bound x).size then k + 1 else k)

theorem wLane_sum {q : FilterWeights ℤ} {out x c : ℕ} (hx : x < out) (hO : NoOverflow16 q out) (hf : c = 3 → AlphaFits q x) :
    ∑ k ∈ range (q.bound x).size, (|wLane q x c k| + 1) < 65472 := by
  have base : (c ≠ 3 ∨ (q.bound x).size ≤ 8) → ∑ k ∈ range (q.bound x).size, (|wLane q x c k| + 1) < 65472 := by
    intro h
    refine lt_of_eq_of_lt (sum_congr rfl fun k hk => ?_) (hO x hx)
    unfold wLane
    rw [if_neg]
    rintro ⟨h1, _, h2⟩
    rcases h with h | h
    · exact h h1
    · omega
  by_cases h3 : c = 3
  · rcases hf h3 with h | h
    · exact base (Or.inr h)
    · refine lt_of_le_of_lt ?_ h
      have e : ∀ k ∈ range (q.bound x).size, |wLane q x c k| + 1 ≤ (|q.weight x k| + 1) +
          (if k + 1 < (q.bound x).size then (if (k + 1) % 8 = 5 then |q.weight x (k + 1)| else 0) else 0) := by
        intro k _
        unfold wLane
        have h1 := abs_nonneg (q.weight x k)
        by_cases hk : c = 3 ∧ k % 8 = 4 ∧ 8 * (k / 8) + 8 < (q.bound x).size
        · obtain ⟨_, h2, h3⟩ := hk
          rw [if_pos ⟨by assumption, h2, h3⟩, if_pos (by omega), if_pos (by omega)]
          omega
        · rw [if_neg hk]
          split_ifs
          · have := abs_nonneg (q.weight x (k + 1)); omega
          · omega
          · omega
      refine le_trans (sum_le_sum e) ?_
      rw [sum_add_distrib, sum_add_distrib (f := fun k => |q.weight x k| + 1)]
      have := sum_shift_le (fun k => if k % 8 = 5 then |q.weight x k| else 0)
        (fun k => by split_ifs; exacts [abs_nonneg _, le_refl _]) (q.bound x).size
      linarith
  · exact base (Or.inl h3)

theorem lowRow_wAvx {N : ℕ} {q : FilterWeights ℤ} {inn out x c : ℕ} (hN : 1 ≤ N) (hc : c < N)
    (hT : ValidTable q inn out) (hx : x < out) (hW : I16Weights q) {P : ℕ → ℕ} (hP : ∀ i, P i ≤ 255) :
    lowRow (wAvx (q.kernel x) (q.bound x)) N (q.bound x) (fun i => P (i / N)) c =
      lowMachine (q.bound x).size (wLane q x c) (fun k => P ((q.bound x).start + k)) := by
  unfold lowRow lowMachine
  congr 4
  refine sum_congr rfl fun k hk => ?_
  have hk : k < (q.bound x).size := by simpa using hk
  dsimp only
  have e : wAvx (q.kernel x) (q.bound x) k c = wLane q x c k := by
    unfold wAvx wLane
    split_ifs with h
    · rw [kernel_getD_lt hT hx (by omega)]
      have := hW.weight x (k + 1)
      exact i16_eq_self (by omega) (by omega)
    · rw [kernel_getD_lt hT hx hk]
      have := hW.weight x k
      exact i16_eq_self (by omega) (by omega)
  rw [e, show (((q.bound x).start + k) * N + c) / N = (q.bound x).start + k by
      rw [Nat.mul_comm, Nat.mul_add_div hN, Nat.div_eq_of_lt hc, Nat.add_zero]]
  have := hP ((q.bound x).start + k)
  rw [Nat.mod_eq_of_lt (by omega)]

theorem HKernel.value_mono {k : HKernel} {N : ℕ} {q : FilterWeights ℤ} {inn out x c : ℕ} {P P' : ℕ → ℕ}
    (hN : 1 ≤ N ∧ N ≤ 4) (hc : c < N) (hk : k.fits N) (hin : 0 < inn)
    (T : ValidTable q inn out) (hx : x < out) (h0 : ∀ i j, 0 ≤ q.weight i j) (hW : I16Weights q) (hO : NoOverflow30 q out)
    (h16 : k.low ∨ k = .rgbaAvxLb → NoOverflow16 q out) (hf : k = .rgbaAvxLb → c = 3 → AlphaFits q x)
    (A : Above inn P P') : k.value N q x c P ≤ k.value N q x c P' := by
  have hi := T.inside x hx
  have hp : ∀ j, j < (q.bound x).size → P ((q.bound x).start + j) ≤ P' ((q.bound x).start + j) :=
    fun j hj => A.le _ (by omega)
  have exact' : exactRow N (q.kernel x) (q.bound x) (fun i => P (i / N)) c ≤
      exactRow N (q.kernel x) (q.bound x) (fun i => P' (i / N)) c := by
    rw [exactRow_value hN.1 hc T hx hW hO A.lo, exactRow_value hN.1 hc T hx hW hO A.hi]
    exact fixedRound_mono (h0 x) hp
  have low' : NoOverflow16 q out → lowRow (wAll (q.kernel x)) N (q.bound x) (fun i => P (i / N)) c ≤
      lowRow (wAll (q.kernel x)) N (q.bound x) (fun i => P' (i / N)) c := by
    intro h
    rw [lowRow_value hN.1 hc (fun _ _ => rfl) T hx hW A.lo, lowRow_value hN.1 hc (fun _ _ => rfl) T hx hW A.hi]
    exact lowMachine_mono (h0 x) (fun k _ => hW.weight x k) (h x hx) (fun _ => A.lo _) (fun _ => A.hi _) hp
  cases k with
  | scalar => exact fixedRound_mono (h0 x) hp
  | planeSse => exact exact'
  | planeSseHrs => exact low' (h16 (Or.inl trivial))
  | cbcrSseHrs => exact low' (h16 (Or.inl trivial))
  | rgbSse => exact exact'
  | rgbaSse => exact exact'
  | rgbaSseLb => exact low' (h16 (Or.inl trivial))
  | rgbaAvxLb =>
    have e : ∀ Q : ℕ → ℕ, HKernel.value .rgbaAvxLb N q x c Q =
        lowRow (wAvx (q.kernel x) (q.bound x)) N (q.bound x) (fun i => Q (i / N)) c := fun _ => rfl
    rw [e, e, lowRow_wAvx hN.1 hc T hx hW A.lo, lowRow_wAvx hN.1 hc T hx hW A.hi]
    exact lowMachine_mono (fun k => h0 x _) (fun k _ => hW.weight x _) (wLane_sum hx (h16 (Or.inr rfl)) (hf rfl))
      (fun _ => A.lo _) (fun _ => A.hi _) hp
  | rgbAvx =>
    have hN3 : N = 3 := hk
    subst hN3
    have key : ∀ Q : ℕ → ℕ, (∀ i, Q i ≤ 255) → rgbAvxRow (q.kernel x) (q.bound x) (fun i => Q (i / 3)) c =
        fixedRound 255 (q.bound x).size (fun k => q.weight x k)
          (fun k => if 2 * (((q.bound x).size - 1) / 2) ≤ k ∧ c < 2 then Q 0 else Q ((q.bound x).start + k)) := by
      intro Q hQ
      have hb : ∀ k, (if 2 * (((q.bound x).size - 1) / 2) ≤ k ∧ c < 2 then Q 0 else Q ((q.bound x).start + k)) ≤ 255 := by
        intro k; split_ifs <;> exact hQ _
      unfold rgbAvxRow
      rw [← packu_exact (hO x hx) fun k _ => hb k]
      congr 3
      refine wsum_congr (fun k hk => ?_) fun k hk => ?_
      · rw [kernel_getD_lt T hx hk]
        have := hW.weight x k
        exact i16_eq_self (by omega) (by omega)
      · dsimp only
        rw [show (((q.bound x).start + k) * 3 + c) / 3 = (q.bound x).start + k by omega, show c / 3 = 0 by omega]
        have := hb k
        rw [Nat.mod_eq_of_lt (by omega)]
    have e : ∀ Q : ℕ → ℕ, HKernel.value .rgbAvx 3 q x c Q =
        rgbAvxRow (q.kernel x) (q.bound x) (fun i => Q (i / 3)) c := fun _ => rfl
    rw [e, e, key P A.lo, key P' A.hi]
    refine fixedRound_mono (h0 x) fun k hk => ?_
    split_ifs
    · exact A.le 0 hin
    · exact hp k hk

/-! ### NEON -/

theorem sat32_mono {a b : ℤ} (h : a ≤ b) : sat32 a ≤ sat32 b := by unfold sat32; omega
theorem sat16_mono {a b : ℤ} (h : a ≤ b) : sat16 a ≤ sat16 b := by unfold sat16; omega

theorem tapR_mono {a a' w : ℤ} {p p' : ℕ} (hw : 0 ≤ w) (ha : a ≤ a') (hp : p ≤ p') : tapR a p w ≤ tapR a' p' w := by
  unfold tapR vqrdmlah1
  apply sat16_mono
  have h1 : expand14 p ≤ expand14 p' := by
    unfold expand14
    rw [Nat.shiftRight_eq_div_pow, Nat.shiftRight_eq_div_pow]
    have : (p * 256 + p) / 2 ^ 2 ≤ (p' * 256 + p') / 2 ^ 2 := Nat.div_le_div_right (by omega)
    exact_mod_cast this
  have h2 := mul_le_mul_of_nonneg_right h1 hw
  rw [Int.shiftRight_eq_div_pow, Int.shiftRight_eq_div_pow]
  exact Int.ediv_le_ediv (by norm_num) (by omega)

theorem tapFold_rdm_mono {init : ℤ} {W : ℕ → ℤ} {p p' : ℕ → ℕ} (hw : ∀ k, 0 ≤ W k) : ∀ {n : ℕ},
    (∀ k, k < n → p k ≤ p' k) → tapFold tapR init W p n ≤ tapFold tapR init W p' n
  | 0, _ => le_refl _
  | n + 1, h => tapR_mono (hw n) (tapFold_rdm_mono hw fun k hk => h k (by omega)) (h n (by omega))

theorem NeonV.weightAt_nonneg {k : NeonV} {q : FilterWeights ℤ} (h0 : ∀ i j, 0 ≤ q.weight i j) (T y p j : ℕ) :
    0 ≤ k.weightAt q T y p j := by
  cases k
  all_goals
    unfold NeonV.weightAt
    dsimp only
    split_ifs <;> exact h0 _ _

theorem NeonV.value_mono {k : NeonV} {q : FilterWeights ℤ} {inn out len y p : ℕ} {P P' : ℕ → ℕ}
    (T : ValidTable q inn out) (hy : y < out) (h0 : ∀ i j, 0 ≤ q.weight i j) (hW : I16Weights q) (hO : NoOverflow30 q out)
    (A : Above inn P P') : k.value q len y p P ≤ k.value q len y p P' := by
  have hin := T.inside y hy
  have hp : ∀ j, j < (q.bound y).size → P ((q.bound y).start + j) ≤ P' ((q.bound y).start + j) :=
    fun j hj => A.le _ (by omega)
  cases k with
  | full D =>
    rw [NeonV.value_full hy hW hO A.lo, NeonV.value_full hy hW hO A.hi]
    exact fixedRoundDown_mono (NeonV.weightAt_nonneg h0 len y p) hp
  | rdm =>
    show narrow16 _ ≤ narrow16 _
    have := tapFold_rdm_mono (init := RDM_ROUNDING) (W := NeonV.weightAt .rdm q len y p) (NeonV.weightAt_nonneg h0 len y p)
      (n := (q.bound y).size) hp
    unfold narrow16
    have h2 := Int.ediv_le_ediv (c := 2 ^ 6) (by norm_num) this
    rw [Int.shiftRight_eq_div_pow, Int.shiftRight_eq_div_pow]
    push_cast at h2 ⊢
    omega

theorem NeonH.value_mono {k : NeonH} {N : ℕ} {q : FilterWeights ℤ} {inn out x : ℕ} {P P' : ℕ → ℕ}
    (T : ValidTable q inn out) (hx : x < out) (h0 : ∀ i j, 0 ≤ q.weight i j)
    (A : Above inn P P') : k.value N q x P ≤ k.value N q x P' := by
  have hin := T.inside x hx
  have hp : ∀ j, j < (q.bound x).size → P ((q.bound x).start + j) ≤ P' ((q.bound x).start + j) :=
    fun j hj => A.le _ (by omega)
  cases k with
  | scalar => exact fixedRound_mono (h0 x) hp
  | full D =>
    refine fixedRoundDown_mono (h0 x) fun j hj => hp j ?_
    split_ifs at hj
    · omega
    · exact hj
  | rdm => exact fixedLow_mono (h0 x) hp

theorem sepAbs_mono {sw sh dw dh : ℕ} {vv : ℕ → ℕ → ℕ → (ℕ → ℕ) → ℕ} {hv : ℕ → ℕ → (ℕ → ℕ) → ℕ} {c y x : ℕ}
    {p p' : ℕ → ℕ → ℕ} (hy : y < dh) (hx : x < dw) (hp : ∀ y x, p y x ≤ 255) (hp' : ∀ y x, p' y x ≤ 255)
    (hle : ∀ y' x', y' < sh → x' < sw → p y' x' ≤ p' y' x')
    (v1 : ∀ x' P, vv y x' c P ≤ 255)
    (hV : sh ≠ dh → ∀ x' P P', Above sh P P' → vv y x' c P ≤ vv y x' c P')
    (hH : sw ≠ dw → ∀ P P', Above sw P P' → hv x c P ≤ hv x c P') :
    sepAbs sw sh dw dh vv hv c p y x ≤ sepAbs sw sh dw dh vv hv c p' y x := by
  have col : ∀ x', x' < sw → (if sh = dh then p y x' else vv y x' c (fun y' => p y' x')) ≤
      (if sh = dh then p' y x' else vv y x' c (fun y' => p' y' x')) := by
    intro x' hx'
    split_ifs with hd
    · exact hle y x' (by omega) hx'
    · exact hV hd x' _ _ ⟨fun i => hp i x', fun i => hp' i x', fun i hi => hle i x' hi hx'⟩
  unfold sepAbs
  dsimp only
  split_ifs with hd hd2 hd2
  · exact hle y x (by omega) (by omega)
  · simpa [hd2] using col x (by omega)
  · exact hH hd _ _ ⟨fun i => hp y i, fun i => hp' y i, fun i hi => by simpa [hd2] using col i hi⟩
  · exact hH hd _ _ ⟨fun i => v1 _ _, fun i => v1 _ _, fun i hi => by simpa [hd2] using col i hi⟩

end PicScale
