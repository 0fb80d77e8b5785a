import Verif.Lemmas.NeonF16Pass
import Verif.Lemmas.F16Value
import Verif.SpecNeonF16

/-! Values of the f16 passes on AArch64. -/

namespace PicScale

open Spec

variable {H A : Type}

theorem sumNeonH_eq (o : HalfOps H ℚ) (ho : o.arith = ratOps) (h : VecOps H) (path : HalfPath) (p : ℕ → H) (w : ℕ → ℚ)
    {n : ℕ} (hn : 1 ≤ n) : sumNeonH o h path p w n = o.neonSum h path p w n := by
  cases path
  · unfold sumNeonH HalfOps.neonSum neonHalfSum
    dsimp only
    rw [ho, sum32_left]
    exact congrArg o.narrow (scalar_leftF true hn)
  · unfold sumNeonH HalfOps.neonSum neonHalfSum laneSum lanesBase
    dsimp only
    rw [ho, sum32_left]
    exact congrArg o.narrow (chain_leftF true hn)
  · unfold sumNeonH HalfOps.neonSum neonHalfSum laneSum lanesFhm
    dsimp only
    rw [ho, sum32_left]
    exact congrArg o.narrow (chain_leftF true hn)
  · unfold sumNeonH HalfOps.neonSum neonHalfSum laneSum lanesFull
    dsimp only
    rw [ho]
    rfl

theorem halfTap_used {path : HalfPath} {N : ℕ} (hN : path = .portable ∨ N = 3 ∨ N = 4) {four : Bool} {n k c : ℕ} (hc : c < N) :
    halfTap path N four n k c = (tapUsed path N four n k c).1 * N + (tapUsed path N four n k c).2 := by
  unfold halfTap tapUsed
  by_cases h1 : path = .portable
  · rw [if_pos h1, if_pos h1]
  rw [if_neg h1, if_neg h1]
  by_cases h4 : N = 4
  · rw [if_pos h4, if_pos h4]
    subst h4
    unfold rgbaTap rgbaPixelUsed
    dsimp only
    split_ifs <;> rfl
  rw [if_neg h4, if_neg h4]
  have h3 : N = 3 := by tauto
  subst h3
  by_cases hf : path = .full
  · rw [if_pos hf]
    subst hf
    unfold rgbTap rgbFastUsed
    simp only [ne_eq, not_true_eq_false, decide_false, Bool.false_eq_true, if_false]
    split_ifs <;> simp only [] <;> omega
  · rw [if_neg hf]
    unfold rgbTap
    simp [hf]

theorem neonSum_congr (o : HalfOps H ℚ) (h : VecOps H) (path : HalfPath) {p p' : ℕ → H} {w : ℕ → ℚ} {n : ℕ} (hn : 1 ≤ n)
    (ho : o.arith = ratOps) (hp : ∀ k, k < n → p k = p' k) : o.neonSum h path p w n = o.neonSum h path p' w n := by
  rw [← sumNeonH_eq o ho h path p w hn, ← sumNeonH_eq o ho h path p' w hn]
  exact sumNeonH_congr o h path hp

/-- Everything about the value of a sample. -/
theorem neonH_taps {W N : ℕ} {L : Lib} {r : ResamplingFunction} {store into : Image H}
    (ha : AcceptedF W N r store into) (cpu : NeonHalfCpu) (st : Workload) (o : HalfOps H ℚ) (ho : o.arith = ratOps)
    (h : VecOps H) :
    ∃ vf hf out, tableOf L r store.height into.height = some vf ∧ tableOf L r store.width into.width = some hf ∧
      ValidTable vf store.height into.height ∧ ValidTable hf store.width into.width ∧
      genericResize W N (formatF16Neon cpu st o h N) L r store into = some (.ok (), out) ∧
      ∀ y x c, y < into.height → x < into.width → c < N →
        let col := fun x' c' => if store.height = into.height then pxD o.zeroH store.buffer (store.strideOf N) N y x' c'
          else o.neonSum h (pathV cpu st)
            (fun j => pxD o.zeroH store.buffer (store.strideOf N) N ((vf.bound y).start + j) x' c') (fun j => vf.weight y j)
            (vf.bound y).size
        sample out.buffer (into.strideOf N) N y x c = some (if store.width = into.width then col x c
          else o.neonSum h (pathH cpu st N) (fun k =>
            let t := tapUsed (pathH cpu st N) N (decide (y < into.height / 4 * 4)) (hf.bound x).size k c
            col ((hf.bound x).start + t.1) t.2) (fun k => hf.weight x k) (hf.bound x).size) := by
  obtain ⟨vf, hf, out, ev, eh, Tv, Th, o1, _, _, o4⟩ := resize_neonH (L := L) ha cpu st o h
  refine ⟨vf, hf, out, ev, eh, Tv, Th, o1, fun y x c hy hx hc => ?_⟩
  intro col
  rw [o4 y x c hy hx hc]
  refine congrArg some ?_
  have hcol : ∀ x' c', (if store.height = into.height then rowPos o.zeroH store.buffer (store.strideOf N) y (x' * N + c')
      else vvNeonH cpu st o h vf y (x' * N + c') (rowPos o.zeroH store.buffer (store.strideOf N))) = col x' c' := by
    intro x' c'
    unfold col
    split_ifs with hh
    · rw [rowPos_pxD]
    · unfold vvNeonH
      rw [sumNeonH_eq o ho h _ _ _ (Tv.size_pos y hy)]
      simp only [rowPos_pxD]
  unfold sepFun
  dsimp only
  by_cases hw : store.width = into.width
  · rw [if_pos hw, if_pos hw, hcol]
  · rw [if_neg hw, if_neg hw]
    unfold hvNeonH
    rw [sumNeonH_eq o ho h _ _ _ (Th.size_pos x hx)]
    refine congrArg (fun p => o.neonSum h (pathH cpu st N) p _ _) (funext fun k => ?_)
    rw [halfTap_used (pathH_channels cpu st N) hc, ← Nat.add_assoc, ← Nat.add_mul]
    exact hcol _ _

/-- When no tap is misplaced. -/
theorem tapUsed_right {path : HalfPath} {N : ℕ} {four : Bool} {n k c : ℕ} (hk : k < n)
    (h : path = .portable ∨ N ≠ 4 ∧ path ≠ .full ∨ N = 4 ∧ (n ≤ 4 ∨ four = true ∧ (n - 1) % 8 < 4)) :
    tapUsed path N four n k c = (k, c) := by
  unfold tapUsed
  split_ifs with h1 h2 h3
  · rfl
  · unfold rgbaPixelUsed
    rw [if_neg]
    rintro ⟨a, b, d⟩
    rcases h with h | h | h
    · exact h1 h
    · exact h.1 h2
    · rcases h.2 with h | ⟨h, h'⟩
      · omega
      · have := a h; omega
  · rcases h with h | h | h
    · exact absurd h h1
    · exact absurd h3 h.2
    · exact absurd h.1 h2
  · rfl

end PicScale
