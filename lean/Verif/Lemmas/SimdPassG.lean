import Verif.Lemmas.SimdPass

/-! Whole passes with arbitrary vector handlers (any weight type). -/

namespace PicScale

open Finset

/-- Horizontal pass: values `V4` in the rows of the groups of four, `V1` in the remaining rows. -/
theorem horizontalG_raw {S W : Type} {d0 : S} {N : ℕ} {src dst : Image S} {fw : FilterWeights W}
    {h1 h4 : List S → List ℕ → List W → Bounds → Option (List (List S))}
    {V1 V4 : List W → Bounds → (ℕ → S) → ℕ → S}
    (hspec1 : ∀ s offs w b, HPre N s offs w b →
      h1 s offs w b = some (offs.map fun o => (List.range N).map fun c => V1 w b (fun i => s.getD (o + i) d0) c))
    (hspec4 : ∀ s offs w b, HPre N s offs w b →
      h4 s offs w b = some (offs.map fun o => (List.range N).map fun c => V4 w b (fun i => s.getD (o + i) d0) c))
    (hloc1 : ∀ w b f g c, 1 ≤ b.size → c < N → (∀ i, i < (b.start + b.size) * N → f i = g i) →
      V1 w b f c = V1 w b g c)
    (hloc4 : ∀ w b f g c, 1 ≤ b.size → c < N → (∀ i, i < (b.start + b.size) * N → f i = g i) →
      V4 w b f c = V4 w b g c)
    (hN : 1 ≤ N) (hs : src.validate N = .ok ()) (hd : dst.validate N = .ok ())
    (hh : src.height = dst.height) (hsw : 0 < src.width) (hdw : 0 < dst.width)
    (hT : ValidTable fw src.width dst.width) :
    ∃ r, horizontalDispatch N src dst (some fun s ss d ds => simdRows4 N (h4 s) ss d ds fw)
        (fun s d => simdRow N (h1 s) d fw) = some { dst with buffer := r } ∧
      r.length = dst.buffer.length ∧
      (∀ y x c, y < dst.height → x < dst.width → c < N → r[y * dst.strideOf N + x * N + c]? =
        some ((if y < dst.height / 4 * 4 then V4 else V1) (fw.kernel x) (fw.bound x)
          (fun i => src.buffer.getD (y * src.strideOf N + i) d0) c)) ∧
      (∀ y p, y < dst.height → dst.width * N ≤ p → p < dst.strideOf N →
        r[y * dst.strideOf N + p]? = dst.buffer[y * dst.strideOf N + p]?) := by
  obtain ⟨s1, s2, _⟩ := validate_ok hs
  obtain ⟨d1, d2, _⟩ := validate_ok hd
  rw [hh] at s1
  have hkl : ∀ x, x < dst.width → (fw.bound x).size ≤ (fw.kernel x).length := fun x hx => by
    rw [hT.shape.kernel_length hx]; exact hT.size_le x hx
  have hin : ∀ x, x < dst.width → ((fw.bound x).start + (fw.bound x).size) * N ≤ src.strideOf N :=
    fun x hx => le_trans (Nat.mul_le_mul_right _ (hT.inside x hx)) s2
  have hpos : 0 < src.strideOf N := lt_of_lt_of_le (Nat.mul_pos hsw hN) s2
  have hdp : 0 < dst.strideOf N := lt_of_lt_of_le (Nat.mul_pos hdw hN) d2
  let val : (ℕ → S) → ℕ → ℕ → S := fun f x c => V1 (fw.kernel x) (fw.bound x) f c
  let val4 : (ℕ → S) → ℕ → ℕ → S := fun f x c => V4 (fw.kernel x) (fw.bound x) f c
  have ok : HOK N (src.strideOf N) (dst.strideOf N) dst.width d0 val
      (fun s d => simdRow N (h1 s) d fw) := by
    refine ⟨fun f g x c hx hc hfg => hloc1 _ _ _ _ _ (hT.size_pos x hx) hc
      (fun i hi => hfg i (lt_of_lt_of_le hi (hin x hx))), ?_⟩
    intro s d hsl hdl
    obtain ⟨r, h1, h2, h3, h4⟩ := rowPass_spec (N := N) (pix := fun w b => do
        let l ← h1 s [0] w b
        l[0]?)
      (fin := fun v : S => v) (dst := d) hT.shape (by omega)
      (val := fun x c => V1 (fw.kernel x) (fw.bound x) (fun i => s.getD i d0) c)
      (fun x hx => by
        have := hin x hx
        rw [hspec1 s [0] _ _ ⟨hT.size_pos x hx, hkl x hx, fun o ho => by
          rw [List.mem_singleton] at ho; omega⟩]
        simp)
    exact ⟨r, h1, by omega, h3, h4⟩
  have ok4 : H4OK N (src.strideOf N) (dst.strideOf N) dst.width d0 val4
      (fun s ss d ds => simdRows4 N (h4 s) ss d ds fw) := by
    intro s d hsl hdl
    obtain ⟨r, h1, h2, h3, h4⟩ := rows4Pass_spec (N := N) (pix4 := fun w b => do
        let l ← h4 s [0, src.strideOf N, src.strideOf N * 2, src.strideOf N * 3] w b
        let r0 ← l[0]?
        let r1 ← l[1]?
        let r2 ← l[2]?
        let r3 ← l[3]?
        some (r0, r1, r2, r3))
      (fin := fun v : S => v) (dst := d) (stride := dst.strideOf N) hT.shape hdl d2
      (val := fun x q c => V4 (fw.kernel x) (fw.bound x) (fun i => s.getD (src.strideOf N * q + i) d0) c)
      (fun x hx => by
        have := hin x hx
        rw [hspec4 s _ _ _ ⟨hT.size_pos x hx, hkl x hx, fun o ho => by
          simp only [List.mem_cons, List.not_mem_nil, or_false] at ho; omega⟩]
        simp)
    exact ⟨r, h1, by omega, h3, h4⟩
  obtain ⟨r, e1, e2, e3, e4⟩ := horizontalDispatch_spec2 ok ok4 (fun f g x c hx hc hfg =>
    hloc4 _ _ _ _ _ (hT.size_pos x hx) hc (fun i hi => hfg i (lt_of_lt_of_le hi (hin x hx))))
    rfl rfl hpos hdp d2 s1 d1
  refine ⟨r, e1, e2, ?_, e4⟩
  intro y x c hy hx hc
  rw [e3 y x c hy hx hc]
  congr 1
  split_ifs <;> first | rfl | omega

/-- Vertical pass with a column handler whose values are `V y p`. -/
theorem verticalG_raw {S W : Type} {N : ℕ} {src dst : Image S}
    {column : Bounds → List S → List S → ℕ → List W → Option (List S)}
    {fw : FilterWeights W} {V : ℕ → ℕ → S}
    (hspec : ∀ y d, y < dst.height → d.length = dst.width * N →
      VPre src.buffer (src.strideOf N) (fw.weights.drop (y * fw.alignedSize)) (fw.bound y) d.length →
      ∃ r, column (fw.bound y) src.buffer d (src.strideOf N) (fw.weights.drop (y * fw.alignedSize)) =
        some r ∧ r.length = d.length ∧ ∀ p, p < d.length → r[p]? = some (V y p))
    (hN : 1 ≤ N) (hs : src.validate N = .ok ()) (hd : dst.validate N = .ok ())
    (hw : src.width = dst.width) (hdw : 0 < dst.width)
    (hT : ValidTable fw src.height dst.height) :
    ∃ r, verticalDispatch N src dst fw.bounds fw.alignedSize fw.weights
        (fun b s d ss w => column b s d ss w) = some { dst with buffer := r } ∧
      r.length = dst.buffer.length ∧
      (∀ y x c, y < dst.height → x < dst.width → c < N → r[y * dst.strideOf N + x * N + c]? =
        some (V y (x * N + c))) ∧
      (∀ y p, y < dst.height → dst.width * N ≤ p → p < dst.strideOf N →
        r[y * dst.strideOf N + p]? = dst.buffer[y * dst.strideOf N + p]?) := by
  obtain ⟨s1, s2, _⟩ := validate_ok hs
  obtain ⟨d1, d2, _⟩ := validate_ok hd
  have hdp : 0 < dst.strideOf N := lt_of_lt_of_le (Nat.mul_pos hdw hN) d2
  have ok : VOK (src.strideOf N) (dst.width * N) src.buffer fw.bounds fw.alignedSize fw.weights
      (fun b s d ss w => column b s d ss w) dst.height V := by
    intro y b hy hb d hdl
    have hbe : b = fw.bound y := (getD_eq_of_getElem? hb).symm
    subst hbe
    have hsz := hT.size_pos y hy
    have hal : (y + 1) * fw.alignedSize ≤ dst.height * fw.alignedSize :=
      Nat.mul_le_mul_right _ hy
    rw [Nat.add_mul] at hal
    have hlen := hT.weights_len
    have hle := hT.size_le y hy
    have hrow : ((fw.bound y).start + (fw.bound y).size - 1) * src.strideOf N + dst.width * N ≤
        src.buffer.length := by
      have h1 := hT.inside y hy
      have h2 : ((fw.bound y).start + (fw.bound y).size - 1 + 1) * src.strideOf N ≤
          src.height * src.strideOf N := Nat.mul_le_mul_right _ (by omega)
      rw [Nat.add_mul] at h2
      rw [hw] at s2
      omega
    obtain ⟨r, h1, h2, h3⟩ := hspec y d hy hdl ⟨hsz, by rw [List.length_drop]; omega, by rw [hdl]; exact hrow⟩
    exact ⟨r, h1, by omega, fun p hp => h3 p (by omega)⟩
  obtain ⟨r, e1, e2, e3, e4⟩ := verticalDispatch_spec (W := W) (aligned := fw.alignedSize)
    (weights := fw.weights) (src := src) (dst := dst) (N := N) rfl rfl hdp d2 d1 hT.bounds_len
    (le_of_eq hT.weights_len.symm) ok
  refine ⟨r, e1, e2, ?_, e4⟩
  intro y x c hy hx hc
  have hlt : x * N + c < dst.width * N := by
    have := Nat.mul_le_mul_right N (show x + 1 ≤ dst.width from hx)
    rw [Nat.add_mul] at this; omega
  rw [Nat.add_assoc, e3 y _ hy hlt]

end PicScale
