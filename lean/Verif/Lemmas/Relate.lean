import Verif.SpecOrder
import Verif.Lemmas.X86F32Value
import Verif.Lemmas.NeonF32

/-!
Sums of windows respect every relation that the arithmetic respects.
-/

namespace PicScale

open F32 Spec

/-- A relation `R` between numbers that binary32 arithmetic with the weights `Q` respects. -/
structure Respects (R : ℚ → ℚ → Prop) (Q : ℚ → Prop) : Prop where
  zero : R 0 0
  wzero : Q 0
  add : ∀ a a' b b', R a a' → R b b' → R (rnd (a + b)) (rnd (a' + b'))
  mul : ∀ a a' w, R a a' → Q w → R (rnd (a * w)) (rnd (a' * w))
  fma : ∀ a a' w c c', R a a' → Q w → R c c' → R (rnd (a * w + c)) (rnd (a' * w + c'))

variable {R : ℚ → ℚ → Prop} {Q : ℚ → Prop}

theorem Respects.mulAdd (h : Respects R Q) (f : Bool) {c c' a a' w : ℚ} (hc : R c c') (ha : R a a') (hw : Q w) :
    R (ratOps.mulAdd f c a w) (ratOps.mulAdd f c' a' w) := by
  unfold VecOps.mulAdd
  split_ifs
  · exact h.fma _ _ _ _ _ ha hw hc
  · exact h.add _ _ _ _ (h.mul _ _ _ ha hw) hc

theorem Respects.mla (h : Respects R Q) (f : Bool) {c c' a a' w : ℚ} (hc : R c c') (ha : R a a') (hw : Q w) :
    R ((ratOps.scalar f).mla c a w) ((ratOps.scalar f).mla c' a' w) := by
  unfold VecOps.scalar
  dsimp only
  split_ifs
  · exact h.fma _ _ _ _ _ ha hw hc
  · exact h.add _ _ _ _ hc (h.mul _ _ _ ha hw)

/-- A step of a sum. -/
def StepOK (R : ℚ → ℚ → Prop) (Q : ℚ → Prop) (m : ℚ → ℚ → ℚ → ℚ) : Prop :=
  ∀ c c' a a' w, R c c' → R a a' → Q w → R (m c a w) (m c' a' w)

theorem chain_rel {m : ℚ → ℚ → ℚ → ℚ} (hm : StepOK R Q m) {z z' : ℚ} (hz : R z z') {p p' w : ℕ → ℚ} {n : ℕ}
    (hp : ∀ k, k < n → R (p k) (p' k)) (hw : ∀ k, k < n → Q (w k)) : R (chain m z p w n) (chain m z' p' w n) := by
  induction n with
  | zero => exact hz
  | succ n ih =>
    exact hm _ _ _ _ _ (ih (fun k hk => hp k (by omega)) (fun k hk => hw k (by omega))) (hp n (by omega)) (hw n (by omega))

theorem tapSum_rel (h : Respects R Q) {m : ℚ → ℚ → ℚ → ℚ} (hm : StepOK R Q m) {p p' w : ℕ → ℚ} {n : ℕ} {L : List Tap}
    (hL : TapsIn n L) (hp : ∀ k, k < n → R (p k) (p' k)) (hw : ∀ k, k < n → Q (w k)) :
    R (tapSum m 0 p w L) (tapSum m 0 p' w L) := by
  induction L using List.reverseRecOn with
  | nil => exact h.zero
  | append_singleton L t ih =>
    rw [tapSum_snoc, tapSum_snoc]
    have ht := hL t (by simp)
    refine hm _ _ _ _ _ (ih fun u hu => hL u (List.mem_append_left _ hu)) ?_ ?_
    · cases e : t.1 with
      | none => exact h.zero
      | some k => exact hp k (ht.1 k e)
    · cases e : t.2 with
      | none => exact h.wzero
      | some k => exact hw k (ht.2 k e)

theorem pairSum_rel (h : Respects R Q) {m : ℚ → ℚ → ℚ → ℚ} (hm : StepOK R Q m) {p p' w : ℕ → ℚ} {n : ℕ} (hn : 1 ≤ n)
    (hp : ∀ k, k < n → R (p k) (p' k)) (hw : ∀ k, k < n → Q (w k)) :
    R (pairSum ratOps.add m 0 p w n) (pairSum ratOps.add m 0 p' w n) :=
  h.add _ _ _ _ (tapSum_rel h hm (lowTaps_in hn) hp hw) (tapSum_rel h hm (highTaps_in hn) hp hw)

theorem quadSum_rel (h : Respects R Q) {m : ℚ → ℚ → ℚ → ℚ} (hm : StepOK R Q m) {single : Bool} {p p' w : ℕ → ℚ} {n : ℕ}
    (hn : 1 ≤ n) (hp : ∀ k, k < n → R (p k) (p' k)) (hw : ∀ k, k < n → Q (w k)) :
    R (quadSum ratOps.add m 0 single p w n) (quadSum ratOps.add m 0 single p' w n) := by
  have t := fun i (hi : i < 4) => tapSum_rel h hm (planeTaps_in (single := single) hn hi) hp hw
  exact h.add _ _ _ _ (h.add _ _ _ _ (t 0 (by norm_num)) (t 1 (by norm_num)))
    (h.add _ _ _ _ (t 2 (by norm_num)) (t 3 (by norm_num)))

theorem floatVal_rel (h : Respects R Q) (f : Bool) {p p' w : ℕ → ℚ} {n : ℕ} (hn : 1 ≤ n)
    (hp : ∀ k, k < n → R (p k) (p' k)) (hw : ∀ k, k < n → Q (w k)) :
    R (floatVal (ratOps.scalar f) n p w) (floatVal (ratOps.scalar f) n p' w) := by
  have hm : StepOK R Q (ratOps.scalar f).mla := fun _ _ _ _ _ hc ha hw => h.mla f hc ha hw
  unfold floatVal
  split_ifs
  · unfold leftSum
    exact chain_rel hm (h.mul _ _ _ (hp 0 (by omega)) (hw 0 (by omega))) (fun k hk => hp _ (by omega))
      (fun k hk => hw _ (by omega))
  · exact chain_rel hm h.zero hp hw

theorem vvF32_rel (h : Respects R Q) (cpu : Cpu) (fma fused : Bool) (fw : FilterWeights ℚ) {y q : ℕ} {P P' : ℕ → ℕ → ℚ}
    (hn : 1 ≤ (fw.bound y).size) (hp : ∀ k, k < (fw.bound y).size → R (P ((fw.bound y).start + k) q) (P' ((fw.bound y).start + k) q))
    (hw : ∀ k, k < (fw.bound y).size → Q (fw.weight y k)) :
    R (vvF32 cpu fma fused ratOps fw y q P) (vvF32 cpu fma fused ratOps fw y q P') := by
  have hm : ∀ f, StepOK R Q (ratOps.mulAdd f) := fun f _ _ _ _ _ hc ha hw => h.mulAdd f hc ha hw
  unfold vvF32
  dsimp only
  split_ifs
  · exact chain_rel (hm _) h.zero hp hw
  · exact chain_rel (hm _) h.zero hp hw
  · exact floatVal_rel h _ hn hp hw

theorem hvF32_rel (h : Respects R Q) (cpu : Cpu) (fma fused : Bool) {N : ℕ} (fw : FilterWeights ℚ) {H y x c : ℕ} {r r' : ℕ → ℚ}
    (hn : 1 ≤ (fw.bound x).size)
    (hp : ∀ k, k < (fw.bound x).size → R (r (((fw.bound x).start + k) * N + c)) (r' (((fw.bound x).start + k) * N + c)))
    (hw : ∀ k, k < (fw.bound x).size → Q (fw.weight x k)) :
    R (hvF32 cpu fma fused ratOps N fw H y x c r) (hvF32 cpu fma fused ratOps N fw H y x c r') := by
  have hm : ∀ f, StepOK R Q (ratOps.mulAdd f) := fun f _ _ _ _ _ hc ha hw => h.mulAdd f hc ha hw
  unfold hvF32
  dsimp only
  split_ifs
  · exact quadSum_rel h (hm _) hn hp hw
  · exact chain_rel (hm _) h.zero hp hw
  · exact pairSum_rel h (hm _) hn hp hw
  · exact chain_rel (hm _) h.zero hp hw
  · exact floatVal_rel h _ hn hp hw

theorem vvNeonF_rel (h : Respects R Q) (fw : FilterWeights ℚ) {y q : ℕ} {P P' : ℕ → ℕ → ℚ}
    (hp : ∀ k, k < (fw.bound y).size → R (P ((fw.bound y).start + k) q) (P' ((fw.bound y).start + k) q))
    (hw : ∀ k, k < (fw.bound y).size → Q (fw.weight y k)) :
    R (vvNeonF ratOps fw y q P) (vvNeonF ratOps fw y q P') := by
  have hm : ∀ f, StepOK R Q (ratOps.mulAdd f) := fun f _ _ _ _ _ hc ha hw => h.mulAdd f hc ha hw
  exact chain_rel (hm true) h.zero hp hw

theorem hvNeonF_rel (h : Respects R Q) {N : ℕ} (fw : FilterWeights ℚ) {H y x c : ℕ} {r r' : ℕ → ℚ}
    (hn : 1 ≤ (fw.bound x).size)
    (hp : ∀ k, k < (fw.bound x).size → R (r (((fw.bound x).start + k) * N + c)) (r' (((fw.bound x).start + k) * N + c)))
    (hw : ∀ k, k < (fw.bound x).size → Q (fw.weight x k)) :
    R (hvNeonF ratOps N fw H y x c r) (hvNeonF ratOps N fw H y x c r') := by
  have hm : ∀ f, StepOK R Q (ratOps.mulAdd f) := fun f _ _ _ _ _ hc ha hw => h.mulAdd f hc ha hw
  unfold hvNeonF
  dsimp only
  split_ifs
  · exact quadSum_rel h (hm _) hn hp hw
  · exact chain_rel (hm _) h.zero hp hw
  · exact chain_rel (hm _) h.zero hp hw
  · exact floatVal_rel h _ hn hp hw

/-- Two passes. -/
theorem sepFun_rel {N sw sh dw dh : ℕ} {vf hf : FilterWeights ℚ} {vv : ℕ → ℕ → (ℕ → ℕ → ℚ) → ℚ}
    {hv : ℕ → ℕ → ℕ → (ℕ → ℚ) → ℚ} {p p' : ℕ → ℕ → ℚ} {y x c : ℕ}
    (Tv : ValidTable vf sh dh) (Th : ValidTable hf sw dw) (hy : y < dh) (hx : x < dw)
    (hP : ∀ j k, j < sh → k < sw → R (p j (k * N + c)) (p' j (k * N + c)))
    (hvv : ∀ q, (∀ k, k < (vf.bound y).size → R (p ((vf.bound y).start + k) q) (p' ((vf.bound y).start + k) q)) →
      R (vv y q p) (vv y q p'))
    (hhv : ∀ r r' : ℕ → ℚ, (∀ k, k < (hf.bound x).size →
        R (r (((hf.bound x).start + k) * N + c)) (r' (((hf.bound x).start + k) * N + c))) → R (hv y x c r) (hv y x c r')) :
    R (sepFun N sw sh dw dh vv hv p y x c) (sepFun N sw sh dw dh vv hv p' y x c) := by
  have col : ∀ k, k < sw → R (if sh = dh then p y (k * N + c) else vv y (k * N + c) p)
      (if sh = dh then p' y (k * N + c) else vv y (k * N + c) p') := by
    intro k hk
    split_ifs with e
    · exact hP y k (by omega) hk
    · refine hvv _ fun j hj => hP _ _ ?_ hk
      have := Tv.inside y hy
      omega
  unfold sepFun
  dsimp only
  by_cases e : sw = dw
  · rw [if_pos e, if_pos e]; exact col x (by omega)
  · rw [if_neg e, if_neg e]
    refine hhv _ _ fun k hk => col _ ?_
    have := Th.inside x hx
    omega

end PicScale
