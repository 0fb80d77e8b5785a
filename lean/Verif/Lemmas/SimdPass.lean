import Verif.Model.X86
import Verif.Lemmas.SimdHorizontalLb
import Verif.Lemmas.FixedPass
import Verif.SpecSimd

namespace PicScale

open Finset

/-- Whole horizontal pass with a vector handler whose pixel values are `V w b row c`. -/
theorem horizontalSimd_raw {N : ℕ} {src dst : Image ℕ} {fw : FilterWeights ℤ}
    {h : List ℕ → List ℕ → List ℤ → Bounds → Option (List (List ℕ))}
    {V : List ℤ → Bounds → (ℕ → ℕ) → ℕ → ℕ}
    (hspec : ∀ s offs w b, HPre N s offs w b →
      h s offs w b = some (offs.map fun o => (List.range N).map fun c => V w b (fun i => s.getD (o + i) 0) c))
    (hloc : ∀ w b f g c, 1 ≤ b.size → c < N → (∀ i, i < (b.start + b.size) * N → f i = g i) →
      V w b f c = V w b g c)
    (hN : 1 ≤ N) (hs : src.validate N = .ok ()) (hd : dst.validate N = .ok ())
    (hh : src.height = dst.height) (hsw : 0 < src.width) (hdw : 0 < dst.width)
    (hT : ValidTable fw src.width dst.width) :
    ∃ r, horizontalSimd N h src dst fw = some { dst with buffer := r } ∧
      r.length = dst.buffer.length ∧
      (∀ y x c, y < dst.height → x < dst.width → c < N → r[y * dst.strideOf N + x * N + c]? =
        some (V (fw.kernel x) (fw.bound x) (fun i => src.buffer.getD (y * src.strideOf N + i) 0) c)) ∧
      (∀ y p, y < dst.height → dst.width * N ≤ p → p < dst.strideOf N →
        r[y * dst.strideOf N + p]? = dst.buffer[y * dst.strideOf N + p]?) := by
  obtain ⟨s1, s2, _⟩ := validate_ok hs
  obtain ⟨d1, d2, _⟩ := validate_ok hd
  rw [hh] at s1
  have hkl : ∀ x, x < dst.width → (fw.bound x).size ≤ (fw.kernel x).length := fun x hx => by
    rw [hT.shape.kernel_length hx]; exact hT.size_le x hx
  have hin : ∀ x, x < dst.width → ((fw.bound x).start + (fw.bound x).size) * N ≤ src.strideOf N :=
    fun x hx => le_trans (Nat.mul_le_mul_right _ (hT.inside x hx)) s2
  have hpos : 0 < src.strideOf N := lt_of_lt_of_le (Nat.mul_pos hsw hN) s2
  have hdp : 0 < dst.strideOf N := lt_of_lt_of_le (Nat.mul_pos hdw hN) d2
  let val : (ℕ → ℕ) → ℕ → ℕ → ℕ := fun f x c => V (fw.kernel x) (fw.bound x) f c
  have ok : HOK N (src.strideOf N) (dst.strideOf N) dst.width 0 val
      (fun s d => simdRow N (h s) d fw) := by
    refine ⟨fun f g x c hx hc hfg => hloc _ _ _ _ _ (hT.size_pos x hx) hc
      (fun i hi => hfg i (lt_of_lt_of_le hi (hin x hx))), ?_⟩
    intro s d hsl hdl
    obtain ⟨r, h1, h2, h3, h4⟩ := rowPass_spec (N := N) (pix := fun w b => do
        let l ← h s [0] w b
        l[0]?)
      (fin := fun v : ℕ => v) (dst := d) hT.shape (by omega)
      (val := fun x c => V (fw.kernel x) (fw.bound x) (fun i => s.getD i 0) c)
      (fun x hx => by
        have := hin x hx
        rw [hspec s [0] _ _ ⟨hT.size_pos x hx, hkl x hx, fun o ho => by
          rw [List.mem_singleton] at ho; omega⟩]
        simp)
    exact ⟨r, h1, by omega, h3, h4⟩
  have ok4 : H4OK N (src.strideOf N) (dst.strideOf N) dst.width 0 val
      (fun s ss d ds => simdRows4 N (h s) ss d ds fw) := by
    intro s d hsl hdl
    obtain ⟨r, h1, h2, h3, h4⟩ := rows4Pass_spec (N := N) (pix4 := fun w b => do
        let l ← h s [0, src.strideOf N, src.strideOf N * 2, src.strideOf N * 3] w b
        let r0 ← l[0]?
        let r1 ← l[1]?
        let r2 ← l[2]?
        let r3 ← l[3]?
        some (r0, r1, r2, r3))
      (fin := fun v : ℕ => v) (dst := d) (stride := dst.strideOf N) hT.shape hdl d2
      (val := fun x q c => V (fw.kernel x) (fw.bound x) (fun i => s.getD (src.strideOf N * q + i) 0) c)
      (fun x hx => by
        have := hin x hx
        rw [hspec s _ _ _ ⟨hT.size_pos x hx, hkl x hx, fun o ho => by
          simp only [List.mem_cons, List.not_mem_nil, or_false] at ho; omega⟩]
        simp)
    exact ⟨r, h1, by omega, h3, h4⟩
  exact horizontalDispatch_spec ok ok4 rfl rfl hpos hdp d2 s1 d1

/-- Whole vertical pass with a column handler whose values are `V y p`. -/
theorem verticalX86_raw {cpu : Cpu} {k : VKernel} (hk : cpu.runsV k = true) {N : ℕ} {src dst : Image ℕ}
    {fw : FilterWeights ℤ} {V : ℕ → ℕ → ℕ}
    (hspec : ∀ y d, y < dst.height → d.length = dst.width * N →
      VPre src.buffer (src.strideOf N) (fw.weights.drop (y * fw.alignedSize)) (fw.bound y) d.length →
      ∃ r, k.column (fw.bound y) src.buffer d (src.strideOf N) (fw.weights.drop (y * fw.alignedSize)) =
        some r ∧ r.length = d.length ∧ ∀ p, p < d.length → r[p]? = some (V y p))
    (hN : 1 ≤ N) (hs : src.validate N = .ok ()) (hd : dst.validate N = .ok ())
    (hw : src.width = dst.width) (hdw : 0 < dst.width)
    (hT : ValidTable fw src.height dst.height) :
    ∃ r, verticalX86 cpu k N src dst fw = some { dst with buffer := r } ∧
      r.length = dst.buffer.length ∧
      (∀ y x c, y < dst.height → x < dst.width → c < N → r[y * dst.strideOf N + x * N + c]? =
        some (V y (x * N + c))) ∧
      (∀ y p, y < dst.height → dst.width * N ≤ p → p < dst.strideOf N →
        r[y * dst.strideOf N + p]? = dst.buffer[y * dst.strideOf N + p]?) := by
  obtain ⟨s1, s2, _⟩ := validate_ok hs
  obtain ⟨d1, d2, _⟩ := validate_ok hd
  have hdp : 0 < dst.strideOf N := lt_of_lt_of_le (Nat.mul_pos hdw hN) d2
  have ok : VOK (src.strideOf N) (dst.width * N) src.buffer fw.bounds fw.alignedSize fw.weights
      (fun b s d ss w => k.column b s d ss w) dst.height V := by
    intro y b hy hb d hdl
    have hbe : b = fw.bound y := (getD_eq_of_getElem? hb).symm
    subst hbe
    have hsz := hT.size_pos y hy
    have hal : (y + 1) * fw.alignedSize ≤ dst.height * fw.alignedSize :=
      Nat.mul_le_mul_right _ hy
    rw [Nat.add_mul] at hal
    have hlen := hT.weights_len
    have hle := hT.size_le y hy
    have hrow : ((fw.bound y).start + (fw.bound y).size - 1) * src.strideOf N + dst.width * N ≤
        src.buffer.length := by
      have h1 := hT.inside y hy
      have h2 : ((fw.bound y).start + (fw.bound y).size - 1 + 1) * src.strideOf N ≤
          src.height * src.strideOf N := Nat.mul_le_mul_right _ (by omega)
      rw [Nat.add_mul] at h2
      rw [hw] at s2
      omega
    obtain ⟨r, h1, h2, h3⟩ := hspec y d hy hdl ⟨hsz, by rw [List.length_drop]; omega, by rw [hdl]; exact hrow⟩
    exact ⟨r, h1, by omega, fun p hp => h3 p (by omega)⟩
  obtain ⟨r, e1, e2, e3, e4⟩ := verticalDispatch_spec (W := ℤ) (aligned := fw.alignedSize)
    (weights := fw.weights) (src := src) (dst := dst) (N := N) rfl rfl hdp d2 d1 hT.bounds_len
    (le_of_eq hT.weights_len.symm) ok
  refine ⟨r, ?_, e2, ?_, e4⟩
  · unfold verticalX86
    rw [if_pos hk]
    exact e1
  intro y x c hy hx hc
  have hlt : x * N + c < dst.width * N := by
    have := Nat.mul_le_mul_right N (show x + 1 ≤ dst.width from hx)
    rw [Nat.add_mul] at this; omega
  rw [Nat.add_assoc, e3 y _ hy hlt]

end PicScale
