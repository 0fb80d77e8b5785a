import Verif.Lemmas.Dispatch
import Verif.SpecTable
import Mathlib.Algebra.Order.BigOperators.Group.Finset
import Mathlib.Algebra.BigOperators.Ring.Finset

namespace PicScale

open Finset

theorem validate_ok {S : Type} {N : ℕ} {img : Image S} (h : img.validate N = .ok ()) :
    img.buffer.length = img.height * img.strideOf N ∧ img.width * N ≤ img.strideOf N ∧
      img.width * N ≤ img.stride := by
  unfold Image.validate at h
  dsimp only at h
  split_ifs at h with h1 h2
  rw [not_not] at h1
  refine ⟨by rw [h1, Nat.mul_comm], ?_, by omega⟩
  unfold Image.strideOf
  split_ifs <;> omega

theorem ValidTable.shape {W : Type} {fw : FilterWeights W} {inn out : ℕ} (h : ValidTable fw inn out) :
    TableShape fw out := ⟨h.bounds_len, h.weights_len, h.aligned_pos⟩

theorem px_eq (buf : List ℕ) (stride N y x c : ℕ) :
    Spec.px buf stride N y x c = (buf.getD (y * stride + x * N + c) 0 : ℕ) := by
  simp [Spec.px, List.getD_eq_getElem?_getD]

theorem wsum_abs_le {n : ℕ} {w p : ℕ → ℤ} {M : ℕ} (hp : ∀ k, k < n → 0 ≤ p k ∧ p k ≤ M) :
    |Spec.wsum n w p| ≤ (∑ k ∈ range n, |w k|) * M := by
  unfold Spec.wsum
  rw [sum_mul]
  refine le_trans (abs_sum_le_sum_abs _ _) (sum_le_sum ?_)
  intro k hk
  have := hp k (by simpa using hk)
  rw [abs_mul, abs_of_nonneg this.1]
  exact mul_le_mul_of_nonneg_left this.2 (abs_nonneg _)

theorem wsum_congr {n : ℕ} {w w' p p' : ℕ → ℤ} (hw : ∀ k, k < n → w k = w' k)
    (hp : ∀ k, k < n → p k = p' k) : Spec.wsum n w p = Spec.wsum n w' p' := by
  unfold Spec.wsum
  refine sum_congr rfl fun k hk => ?_
  rw [hw k (by simpa using hk), hp k (by simpa using hk)]

theorem shiftRight_eq_floor (v : ℤ) : v >>> 15 = ⌊((v : ℚ) / 32768)⌋ := by
  rw [Int.shiftRight_eq_div_pow]
  have := Rat.floor_intCast_div_natCast v 32768
  push_cast at this
  rw [this]
  norm_num

theorem saturateNarrow_floor (hi : ℕ) (v : ℤ) :
    saturateNarrow hi v = Spec.clamp hi (Spec.fixFloor v) := by
  unfold saturateNarrow Spec.clamp Spec.fixFloor
  rw [shiftRight_eq_floor]
  congr 1
  omega

theorem saturateNarrow_round (hi : ℕ) (v : ℤ) :
    saturateNarrow hi (16384 + v) = Spec.clamp hi (Spec.fixRound v) := by
  unfold saturateNarrow Spec.clamp Spec.fixRound
  rw [shiftRight_eq_floor]
  rw [show (((16384 + v : ℤ) : ℚ) / 32768) = (v : ℚ) / 32768 + 1 / 2 by push_cast; ring]
  congr 1
  omega

theorem clamp_le (hi : ℕ) (v : ℤ) : Spec.clamp hi v ≤ hi := by
  unfold Spec.clamp; omega

theorem getD_le_of_forall {l : List ℕ} {M : ℕ} (h : ∀ v ∈ l, v ≤ M) (i : ℕ) : l.getD i 0 ≤ M := by
  by_cases hi : i < l.length
  · rw [List.getD_eq_getElem?_getD, List.getElem?_eq_getElem hi]
    exact h _ (List.getElem_mem hi)
  · simp [List.getD_eq_getElem?_getD, List.getElem?_eq_none (by omega : l.length ≤ i)]

/-- pixel formula of the horizontal pass before range considerations (wrapping) -/
theorem horizontalFixed_raw {N hi : ℕ} {src dst : Image ℕ} {fw : FilterWeights ℤ}
    (hN : 1 ≤ N ∧ N ≤ 4) (hs : src.validate N = .ok ()) (hd : dst.validate N = .ok ())
    (hh : src.height = dst.height) (hsw : 0 < src.width) (hdw : 0 < dst.width)
    (hT : ValidTable fw src.width dst.width) :
    ∃ r, horizontalFixed N hi src dst fw = some { dst with buffer := r } ∧
      r.length = dst.buffer.length ∧
      (∀ y x c, y < dst.height → x < dst.width → c < N → r[y * dst.strideOf N + x * N + c]? =
        some (saturateNarrow hi (i32 (16384 + Spec.wsum (fw.bound x).size (fun k => fw.weight x k)
          (fun k => Spec.px src.buffer (src.strideOf N) N y ((fw.bound x).start + k) c))))) ∧
      (∀ y p, y < dst.height → dst.width * N ≤ p → p < dst.strideOf N →
        r[y * dst.strideOf N + p]? = dst.buffer[y * dst.strideOf N + p]?) := by
  obtain ⟨s1, s2, _⟩ := validate_ok hs
  obtain ⟨d1, d2, _⟩ := validate_ok hd
  rw [hh] at s1
  have hkl : ∀ x, x < dst.width → (fw.bound x).size ≤ (fw.kernel x).length := fun x hx => by
    rw [hT.shape.kernel_length hx]; exact hT.size_le x hx
  have hin : ∀ x, x < dst.width → ((fw.bound x).start + (fw.bound x).size) * N ≤ src.strideOf N :=
    fun x hx => le_trans (Nat.mul_le_mul_right _ (hT.inside x hx)) s2
  let val : (ℕ → ℕ) → ℕ → ℕ → ℕ := fun f x c => saturateNarrow hi (i32 (16384 +
    Spec.wsum (fw.bound x).size (fun k => (fw.kernel x).getD k 0)
      (fun k => (f (((fw.bound x).start + k) * N + c) : ℕ))))
  have hpos : 0 < src.strideOf N := lt_of_lt_of_le (Nat.mul_pos hsw hN.1) s2
  have hdp : 0 < dst.strideOf N := lt_of_lt_of_le (Nat.mul_pos hdw hN.1) d2
  have loc : ∀ (f g : ℕ → ℕ) x c, x < dst.width → c < N → (∀ i, i < src.strideOf N → f i = g i) →
      val f x c = val g x c := by
    intro f g x c hx hc h
    simp only [val]
    congr 3
    apply wsum_congr (fun _ _ => rfl)
    intro k hk
    rw [h]
    have := hin x hx
    have h2 : ((fw.bound x).start + k + 1) * N ≤ ((fw.bound x).start + (fw.bound x).size) * N :=
      Nat.mul_le_mul_right _ (by omega)
    rw [Nat.add_mul _ 1] at h2
    omega
  have ok : HOK N (src.strideOf N) (dst.strideOf N) dst.width 0 val
      (fun s d => rowFixed N hi s d fw) := by
    refine ⟨loc, ?_⟩
    intro s d hsl hdl
    obtain ⟨r, h1, h2, h3, h4⟩ := rowPass_spec (N := N) (pix := rowPixelSums N s 0)
      (fin := saturateNarrow hi) (dst := d) hT.shape (by omega)
      (val := fun x => hSum N s 0 (fw.kernel x) (fw.bound x))
      (fun x hx => rowPixelSums_eq hN (by have := hin x hx; omega) (hkl x hx))
    refine ⟨r, h1, by omega, ?_, h4⟩
    intro x c hx hc
    rw [h3 x c hx hc]
    simp only [val, hSum, Nat.zero_add]
  have ok4 : H4OK N (src.strideOf N) (dst.strideOf N) dst.width 0 val
      (fun s ss d ds => rows4Fixed N hi s ss d ds fw) := by
    intro s d hsl hdl
    obtain ⟨r, h1, h2, h3, h4⟩ := rows4Pass_spec (N := N) (pix4 := rows4PixelSums N s (src.strideOf N))
      (fin := saturateNarrow hi) (dst := d) (stride := dst.strideOf N) hT.shape hdl d2
      (val := fun x q => hSum N s (src.strideOf N * q) (fw.kernel x) (fw.bound x))
      (fun x hx => rows4PixelSums_eq hN (by have := hin x hx; omega) (hkl x hx))
    refine ⟨r, h1, by omega, ?_, h4⟩
    intro q x c hq hx hc
    rw [h3 q x c hq hx hc]
    simp only [val, hSum, Nat.add_assoc]
  obtain ⟨r, e1, e2, e3, e4⟩ := horizontalDispatch_spec ok ok4 rfl rfl hpos hdp d2 s1 d1
  refine ⟨r, e1, e2, ?_, e4⟩
  intro y x c hy hx hc
  rw [e3 y x c hy hx hc]
  simp only [val]
  congr 4
  apply wsum_congr
  · intro k hk
    exact FilterWeights.kernel_getD fw x k 0 (by have := hT.size_le x hx; omega)
  · intro k hk
    rw [px_eq, Nat.add_assoc]

theorem verticalFixed_raw {N hi : ℕ} {src dst : Image ℕ} {fw : FilterWeights ℤ}
    (hN : 1 ≤ N) (hs : src.validate N = .ok ()) (hd : dst.validate N = .ok ())
    (hw : src.width = dst.width) (hdw : 0 < dst.width)
    (hT : ValidTable fw src.height dst.height) :
    ∃ r, verticalFixed N hi src dst fw = some { dst with buffer := r } ∧
      r.length = dst.buffer.length ∧
      (∀ y x c, y < dst.height → x < dst.width → c < N → r[y * dst.strideOf N + x * N + c]? =
        some (saturateNarrow hi (i32 (Spec.wsum (fw.bound y).size (fun k => fw.weight y k)
          (fun k => Spec.px src.buffer (src.strideOf N) N ((fw.bound y).start + k) x c))))) ∧
      (∀ y p, y < dst.height → dst.width * N ≤ p → p < dst.strideOf N →
        r[y * dst.strideOf N + p]? = dst.buffer[y * dst.strideOf N + p]?) := by
  obtain ⟨s1, s2, _⟩ := validate_ok hs
  obtain ⟨d1, d2, _⟩ := validate_ok hd
  have hdp : 0 < dst.strideOf N := lt_of_lt_of_le (Nat.mul_pos hdw hN) d2
  let val : ℕ → ℕ → ℕ := fun y p => saturateNarrow hi (vSum src.buffer (src.strideOf N)
    (fw.weights.drop (y * fw.alignedSize)) (fw.bound y) p)
  have ok : VOK (src.strideOf N) (dst.width * N) src.buffer fw.bounds fw.alignedSize fw.weights
      (fun b s d ss w => columnFixed hi b s d ss w) dst.height val := by
    intro y b hy hb d hdl
    have hbe : b = fw.bound y := (getD_eq_of_getElem? hb).symm
    subst hbe
    have hsz := hT.size_pos y hy
    have hal : (y + 1) * fw.alignedSize ≤ dst.height * fw.alignedSize :=
      Nat.mul_le_mul_right _ hy
    rw [Nat.add_mul] at hal
    have hlen := hT.weights_len
    have hle := hT.size_le y hy
    have hrow : ((fw.bound y).start + (fw.bound y).size - 1) * src.strideOf N + dst.width * N ≤
        src.buffer.length := by
      have h1 := hT.inside y hy
      have h2 : ((fw.bound y).start + (fw.bound y).size - 1 + 1) * src.strideOf N ≤
          src.height * src.strideOf N := Nat.mul_le_mul_right _ (by omega)
      rw [Nat.add_mul] at h2
      rw [hw] at s2
      omega
    obtain ⟨r, h1, h2, h3⟩ := columnFixed_spec (hi := hi) (src := src.buffer) (dst := d)
      (stride := src.strideOf N) (w := fw.weights.drop (y * fw.alignedSize)) (b := fw.bound y) hsz
      (by rw [List.length_drop]; omega) (by rw [hdl]; exact hrow)
    exact ⟨r, h1, by omega, fun p hp => h3 p (by omega)⟩
  obtain ⟨r, e1, e2, e3, e4⟩ := verticalDispatch_spec (W := ℤ) (aligned := fw.alignedSize)
    (weights := fw.weights) (src := src) (dst := dst) (N := N) rfl rfl hdp d2 d1 hT.bounds_len
    (le_of_eq hT.weights_len.symm) ok
  refine ⟨r, e1, e2, ?_, e4⟩
  intro y x c hy hx hc
  have hlt : x * N + c < dst.width * N := by
    have := Nat.mul_le_mul_right N (show x + 1 ≤ dst.width from hx)
    rw [Nat.add_mul] at this; omega
  rw [Nat.add_assoc, e3 y _ hy hlt]
  simp only [val, vSum]
  congr 3
  apply wsum_congr
  · intro k hk
    simp [FilterWeights.weight, List.getD_eq_getElem?_getD, List.getElem?_drop]
  · intro k hk
    rw [px_eq, Nat.add_assoc]

end PicScale
