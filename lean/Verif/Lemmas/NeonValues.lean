import Verif.Lemmas.NeonSteps

/-! The values of the NEON horizontal handlers when nothing overflows. -/

namespace PicScale

open Finset Spec

theorem loop_adds {M : ℤ} {term : ℕ → ℤ → ℤ} {cost : ℤ → ℤ} {N : ℕ} {I : ℕ → List ℕ} {n : ℕ} {init : ℤ}
    {w : List ℤ} {px : ℕ → ℕ → ℕ} {m : ℕ} {g : ℕ → List ℤ → List ℤ} {size margin jx : ℕ} {s : List ℤ}
    (hs : StepInv M term cost N I n init w px jx s ∧ jx ≤ size)
    (h : StepAdds M term cost N I n w px m g) (hm : m ≤ margin + 1) :
    StepInv M term cost N I n init w px (loopEnd margin m size size jx)
      (pureLoop margin m size g size jx s) ∧ loopEnd margin m size size jx ≤ size :=
  pureLoop_inv (P := fun jx s => StepInv M term cost N I n init w px jx s) hm
    (fun jx s _ hi => h.inv jx s hi) size jx s hs.2 hs.1

theorem loopEnd_last {size jx : ℕ} (h : jx ≤ size) : loopEnd 0 1 size size jx = size := by
  have h1 := loopEnd_eq (margin := 0) (step := 1) (size := size) (by omega) (by omega) size jx h (by omega)
  have h2 := (pureLoop_inv (P := fun _ (_ : Unit) => True) (margin := 0) (step := 1) (size := size)
    (g := fun _ s => s) (by omega) (by simp) size jx () h trivial).2
  omega

theorem loopEnd_val {step size : ℕ} (hs : 1 ≤ step) : ∀ fuel jx, jx < size → size ≤ fuel + jx →
    loopEnd step step size fuel jx = jx + step * ((size - 1 - jx) / step) := by
  intro fuel
  induction fuel with
  | zero => intro jx h1 h2; omega
  | succ fuel ih =>
    intro jx h1 h2
    unfold loopEnd
    by_cases hlt : jx + step < size
    · rw [if_pos hlt, ih _ hlt (by omega)]
      have : size - 1 - jx = (size - 1 - (jx + step)) + step := by omega
      rw [this, Nat.add_div_right _ hs]
      ring
    · rw [if_neg hlt, Nat.div_eq_of_lt (by omega)]
      omega

section
variable {w : List ℤ} {px : ℕ → ℕ → ℕ} {M : ℤ} {term : ℕ → ℤ → ℤ} {cost : ℤ → ℤ}

theorem rgbaNeonAcc_inv (D : Bool) (T : TapOK (tapX D) term cost M) (hw : W16 w) (hp : ∀ k c, px k c ≤ 255)
    (n : ℕ) (h0 : 0 ≤ neonRnd D) :
    StepInv M term cost 4 (fun c => [c]) 4 (neonRnd D) w px n (rgbaNeonAcc D w n px) := by
  have h : StepInv M term cost 4 (fun c => [c]) 4 (neonRnd D) w px 0 (List.replicate 4 (neonRnd D)) ∧ 0 ≤ n := by
    refine ⟨fun c hc => ⟨rfl, fun _ => ?_⟩, by omega⟩
    interval_cases c <;> simp [abs_of_nonneg h0]
  have h := loop_adds (margin := 8) h (rgbaNeon8_adds D T hw hp) (by omega)
  have h := loop_adds (margin := 4) h (rgbaNeon4_adds D T hw hp) (by omega)
  have h := loop_adds (margin := 2) h (rgbaNeon2_adds D T hw hp) (by omega)
  have e := loopEnd_last h.2
  have h := loop_adds (margin := 0) h (rgbaNeon1_adds D T hw hp) (by omega)
  rw [e] at h
  exact h.1

theorem rgbNeonAcc_inv (D : Bool) (T : TapOK (tapX D) term cost M) (hw : W16 w) (hp : ∀ k c, px k c ≤ 255)
    (n : ℕ) (h0 : 0 ≤ neonRnd D) :
    StepInv M term cost 3 (fun c => [c]) 4 (neonRnd D) w px n (rgbNeonAcc D w n px) := by
  have h : StepInv M term cost 3 (fun c => [c]) 4 (neonRnd D) w px 0 (List.replicate 4 (neonRnd D)) ∧ 0 ≤ n := by
    refine ⟨fun c hc => ⟨rfl, fun _ => ?_⟩, by omega⟩
    interval_cases c <;> simp [abs_of_nonneg h0]
  have h := loop_adds (margin := 4) h (rgbNeon4_adds D T hw hp) (by omega)
  have h := loop_adds (margin := 2) h (rgbNeon2_adds D T hw hp) (by omega)
  have e := loopEnd_last h.2
  have h := loop_adds (margin := 0) h (rgbNeon1_adds D T hw hp) (by omega)
  rw [e] at h
  exact h.1

theorem pureLoop_const {margin step size : ℕ} {s : List ℤ} {g : ℕ → List ℤ → List ℤ} (hg : ∀ j s, g j s = s) :
    ∀ fuel jx, pureLoop margin step size g fuel jx s = s := by
  intro fuel
  induction fuel with
  | zero => intro jx; rfl
  | succ fuel ih =>
    intro jx
    unfold pureLoop
    split_ifs
    · rw [hg]; exact ih _
    · rfl

/-- The taps `planeNeon` uses. -/
theorem planeNeonAcc_inv (D : Bool) (T : TapOK (tapX D) term cost M) (hw : W16 w) (hp : ∀ k c, px k c ≤ 255)
    (n : ℕ) (hn : 1 ≤ n) (h0 : 0 ≤ neonRnd D) :
    StepInv M term cost 1 (fun _ => List.range 4) 4 (neonRnd D) w px (8 * ((n - 1) / 8)) (planeNeonAcc D w n px) := by
  have h : StepInv M term cost 1 (fun _ => List.range 4) 4 (neonRnd D) w px 0 [neonRnd D, 0, 0, 0] ∧ 0 ≤ n := by
    refine ⟨fun c hc => ⟨rfl, fun _ => ?_⟩, by omega⟩
    simp [List.range_succ, abs_of_nonneg h0]
  have h := loop_adds (margin := 16) h (planeNeon16_adds D T hw hp) (by omega)
  have e1 := loopEnd_val (step := 16) (size := n) (by omega) n 0 (by omega) (by omega)
  rw [e1] at h
  have h := loop_adds (margin := 8) h (planeNeon8_adds D T hw hp) (by omega)
  have e2 := loopEnd_val (step := 8) (size := n) (by omega) n (0 + 16 * ((n - 1 - 0) / 16)) (by omega) (by omega)
  rw [e2] at h
  have e3 : 0 + 16 * ((n - 1 - 0) / 16) + 8 * ((n - 1 - (0 + 16 * ((n - 1 - 0) / 16))) / 8) = 8 * ((n - 1) / 8) := by
    omega
  rw [e3] at h
  unfold planeNeonAcc
  dsimp only
  rw [pureLoop_const (g := step1 1 1 1 planeNeonCore1 w px) (fun _ _ => rfl),
    pureLoop_const (g := step1 1 4 4 planeNeonCore4 w px) (fun _ _ => rfl), e1]
  exact h.1

theorem rgbaRdmAcc_inv (hw : W16 w) (hp : ∀ k c, px k c ≤ 255) (n : ℕ) :
    StepInv 65535 lowTerm rdmCost 4 (fun c => [c]) 4 32 w px n (rgbaRdmAcc w n px) := by
  have h : StepInv 65535 lowTerm rdmCost 4 (fun c => [c, c + 4]) 8 32 w px 0
      (List.replicate 4 RDM_ROUNDING ++ List.replicate 4 0) ∧ 0 ≤ n := by
    refine ⟨fun c hc => ⟨rfl, fun _ => ?_⟩, by omega⟩
    interval_cases c <;> simp [List.replicate_succ, RDM_ROUNDING]
  have h := loop_adds (margin := 8) h (rgbaRdm8_adds hw hp) (by omega)
  have h := loop_adds (margin := 4) h (rgbaRdm4_adds hw hp) (by omega)
  have h := loop_adds (margin := 2) h (rgbaRdm2_adds hw hp) (by omega)
  have e := loopEnd_last h.2
  obtain ⟨st, hst⟩ : ∃ st, pureLoop 2 2 n (step1 4 2 8 rgbaRdmCore2 w px) n (loopEnd 4 4 n n (loopEnd 8 8 n n 0))
      (pureLoop 4 4 n (step1 4 4 16 rgbaRdmCore4 w px) n (loopEnd 8 8 n n 0)
        (pureLoop 8 8 n (step2 4 8 16 16 rgbaRdmCore8 w px) n 0
          (List.replicate 4 RDM_ROUNDING ++ List.replicate 4 0))) = st := ⟨_, rfl⟩
  have h2 : StepInv 65535 lowTerm rdmCost 4 (fun c => [c]) 4 32 w px
      (loopEnd 2 2 n n (loopEnd 4 4 n n (loopEnd 8 8 n n 0))) (vadd16 (st.take 4) (st.drop 4)) ∧
      loopEnd 2 2 n n (loopEnd 4 4 n n (loopEnd 8 8 n n 0)) ≤ n := by
    refine ⟨fun c hc => ?_, h.2⟩
    rw [hst] at h
    obtain ⟨l, h3⟩ := h.1 c hc
    refine ⟨by simp [vadd16, l], fun hM => ?_⟩
    obtain ⟨a1, a2⟩ := h3 hM
    match st, l with
    | [s0, s1, s2, s3, s4, s5, s6, s7], _ =>
      interval_cases c <;>
        (simp only [List.map_cons, List.map_nil, List.sum_cons, List.sum_nil, List.getD_cons_zero,
          List.getD_cons_succ, vadd16, List.take_succ_cons, List.take_zero, List.drop_succ_cons, List.drop_zero,
          List.zipWith_cons_cons, List.zipWith_nil_left, add_zero] at a1 a2 ⊢
         rw [a1]
         generalize 32 + ∑ k ∈ range _, lowTerm _ _ = v at a1 ⊢
         have := abs_add_le s0 s4
         have := abs_add_le s1 s5
         have := abs_add_le s2 s6
         have := abs_add_le s3 s7
         have hv : |v| ≤ 32767 := by rw [← a1]; omega
         have hv' := abs_le.1 hv
         rw [i16_eq_self (by omega) (by omega)]
         refine ⟨rfl, ?_⟩
         rw [← a1]
         omega)
  have h := loop_adds (margin := 0) h2 (rgbaRdm1_adds hw hp) (by omega)
  rw [e, ← hst] at h
  exact h.1

theorem rgbRdmAcc_inv (hw : W16 w) (hp : ∀ k c, px k c ≤ 255) (n : ℕ) :
    StepInv 65535 lowTerm rdmCost 3 (fun c => [c, c + 4]) 8 32 w px n (rgbRdmAcc w n px) := by
  have h : StepInv 65535 lowTerm rdmCost 3 (fun c => [c, c + 4]) 8 32 w px 0
      [RDM_ROUNDING, RDM_ROUNDING, RDM_ROUNDING, 0, 0, 0, 0, 0] ∧ 0 ≤ n := by
    refine ⟨fun c hc => ⟨rfl, fun _ => ?_⟩, by omega⟩
    interval_cases c <;> simp [RDM_ROUNDING]
  have h := loop_adds (margin := 4) h (rgbRdm4_adds hw hp) (by omega)
  have h := loop_adds (margin := 2) h (rgbRdm2_adds hw hp) (by omega)
  have e := loopEnd_last h.2
  have h := loop_adds (margin := 0) h (rgbRdm1_adds hw hp) (by omega)
  rw [e] at h
  exact h.1

theorem planeRdmAcc_inv (hw : W16 w) (hp : ∀ k c, px k c ≤ 255) (n : ℕ) :
    StepInv 65535 lowTerm rdmCost 1 (fun _ => List.range 8) 8 32 w px n (planeRdmAcc w n px) := by
  have h : StepInv 65535 lowTerm rdmCost 1 (fun _ => List.range 8) 8 32 w px 0
      [RDM_ROUNDING, 0, 0, 0, 0, 0, 0, 0] ∧ 0 ≤ n := by
    refine ⟨fun c hc => ⟨rfl, fun _ => ?_⟩, by omega⟩
    simp [List.range_succ, RDM_ROUNDING]
  have h := loop_adds (margin := 32) h (planeRdm32_adds hw hp) (by omega)
  have h := loop_adds (margin := 16) h (planeRdm16_adds hw hp) (by omega)
  have h := loop_adds (margin := 8) h (planeRdm8_adds hw hp) (by omega)
  have h := loop_adds (margin := 4) h (planeRdm4_adds hw hp) (by omega)
  have e := loopEnd_last h.2
  have h := loop_adds (margin := 0) h (planeRdm1_adds hw hp) (by omega)
  rw [e] at h
  exact h.1

theorem cbcrRdmAcc_inv (hw : W16 w) (hp : ∀ k c, px k c ≤ 255) (n : ℕ) :
    StepInv 65535 lowTerm rdmCost 2 (fun c => [c, c + 2, c + 4, c + 6]) 8 32 w px n (cbcrRdmAcc w n px) := by
  have h : StepInv 65535 lowTerm rdmCost 2 (fun c => [c, c + 2, c + 4, c + 6]) 8 32 w px 0
      [RDM_ROUNDING, RDM_ROUNDING, 0, 0, 0, 0, 0, 0] ∧ 0 ≤ n := by
    refine ⟨fun c hc => ⟨rfl, fun _ => ?_⟩, by omega⟩
    interval_cases c <;> simp [RDM_ROUNDING]
  have h := loop_adds (margin := 8) h (cbcrRdm8_adds hw hp) (by omega)
  have h := loop_adds (margin := 4) h (cbcrRdm4_adds hw hp) (by omega)
  have e := loopEnd_last h.2
  have h := loop_adds (margin := 0) h (cbcrRdm1_adds hw hp) (by omega)
  rw [e] at h
  exact h.1

end

/-! ### Rounding -/

theorem fixRoundDown_eq (S : ℤ) : fixRoundDown S = (S + 16383) / 32768 := by
  unfold fixRoundDown
  obtain ⟨q, hq⟩ : ∃ q, (S + 16383) / 32768 = q := ⟨_, rfl⟩
  rw [hq, Int.ceil_eq_iff]
  have h1 : 32768 * q ≤ S + 16383 := by omega
  have h2 : S ≤ 32768 * q + 16384 := by omega
  have h1' : (32768 : ℚ) * q ≤ S + 16383 := by exact_mod_cast h1
  have h2' : (S : ℚ) ≤ 32768 * q + 16384 := by exact_mod_cast h2
  constructor <;> linarith

theorem neonRnd_nonneg (D : Bool) : 0 ≤ neonRnd D := by cases D <;> decide

theorem shift_prec (D : Bool) (S : ℤ) : (neonRnd D + dbl D * S) >>> neonPrec D = fixRoundDown S := by
  rw [fixRoundDown_eq, Int.shiftRight_eq_div_pow]
  cases D
  · rw [show neonRnd false = 16383 by decide, show dbl false = 1 from rfl, show neonPrec false = 15 from rfl]
    norm_num
    congr 1
    ring
  · rw [show neonRnd true = 32767 by decide, show dbl true = 2 from rfl, show neonPrec true = 16 from rfl]
    norm_num
    omega

theorem narrow32_eq (D : Bool) (S : ℤ) : narrow32 D (neonRnd D + dbl D * S) = clamp 255 (fixRoundDown S) := by
  unfold narrow32 clamp
  rw [shift_prec]
  generalize fixRoundDown S = v
  congr 1
  push_cast
  omega

theorem planeNarrow32_eq (D : Bool) {acc : List ℤ} {S : ℤ} (h : acc.sum = neonRnd D + dbl D * S)
    (hb : |acc.sum| ≤ 2147483647) : planeNarrow32 D acc = clamp 255 (fixRoundDown S) := by
  unfold planeNarrow32
  have hb' := abs_le.1 hb
  rw [i32_eq_self (by omega) (by omega), h]
  unfold clamp
  congr 1
  have hs := shift_prec D S
  rcases le_total (neonRnd D + dbl D * S) 0 with h0 | h0
  · rw [max_eq_right h0, ← hs]
    have h1 : (neonRnd D + dbl D * S) >>> neonPrec D ≤ 0 := by
      rw [Int.shiftRight_eq_div_pow]
      have : (0 : ℤ) < ((2 ^ neonPrec D : ℕ) : ℤ) := by positivity
      calc (neonRnd D + dbl D * S) / ((2 ^ neonPrec D : ℕ) : ℤ) ≤ 0 / ((2 ^ neonPrec D : ℕ) : ℤ) :=
            Int.ediv_le_ediv this h0
        _ = 0 := Int.zero_ediv _
    rw [Int.zero_shiftRight]
    push_cast
    omega
  · rw [max_eq_left h0, hs]
    have h1 : 0 ≤ fixRoundDown S := by
      rw [← hs, Int.shiftRight_eq_div_pow]
      positivity
    push_cast
    omega

theorem narrow16_eq (T : ℤ) : narrow16 (32 + T) = clamp 255 ⌊(T : ℚ) / 64 + 1 / 2⌋ := by
  unfold narrow16 clamp
  rw [shift_floor]
  congr 4
  · congr 1
    push_cast
    ring

theorem planeNarrow16_eq {acc : List ℤ} {T : ℤ} (h : acc.sum = 32 + T) (hb : |acc.sum| ≤ 32767) :
    planeNarrow16 acc = clamp 255 ⌊(T : ℚ) / 64 + 1 / 2⌋ := by
  rw [← narrow16_eq, ← h]
  unfold planeNarrow16 narrow16
  have hb' := abs_le.1 hb
  rw [i16_eq_self (by omega) (by omega)]
  congr 1
  generalize acc.sum = v
  rw [Int.shiftRight_eq_div_pow, Int.shiftRight_eq_div_pow]
  norm_num
  omega

end PicScale
