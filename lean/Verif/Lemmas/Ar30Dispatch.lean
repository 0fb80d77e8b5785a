import Verif.Lemmas.Ar30Column
import Verif.Lemmas.Quantise
import Verif.SpecResize

/-! The two passes over packed 10-bit images, pixel by pixel. -/

namespace PicScale

open Finset Spec

/-- Taps applied by the horizontal pass over `H` rows at row `y` for a window of `n` pixels. -/
def taps30 (H y n : ℕ) : ℕ := if y < 4 * (H / 4) then n else taps1 n

theorem taps1_le (n : ℕ) : taps1 n ≤ n := by
  unfold taps1; split_ifs <;> omega

theorem taps30_le (H y n : ℕ) : taps30 H y n ≤ n := by
  unfold taps30; split_ifs
  · exact le_refl _
  · exact taps1_le n

theorem image30_stride {buffer : List ℕ} {w h s : ℕ} (hs : 0 < s) : (image30 buffer w h s).strideOf 4 = s := by
  unfold image30 Image.strideOf
  simp only
  rw [if_neg (by omega)]

/-- Components of a pixel whose four bytes are known. -/
theorem pix30_of_bytes (F : Fmt30) {r : List ℕ} {stride y x : ℕ} {S : ℕ → ℤ}
    (h : ∀ i, i < 4 → r[y * stride + x * 4 + i]? = some (enc30 F S i)) :
    (∀ c, c < 3 → pix30 F r stride y x c = saturate30 1023 (S c)) ∧ pix30 F r stride y x 3 = 3 := by
  have e : word30 F.bigFirst (fun i => r.getD (y * stride + x * 4 + i) 0) = word30 F.bigFirst (enc30 F S) := by
    have hi : ∀ i, i < 4 → r.getD (y * stride + x * 4 + i) 0 = enc30 F S i := fun i hi => by
      rw [List.getD_eq_getElem?_getD, h i hi]; rfl
    unfold word30
    simp only [hi 0 (by omega), hi 1 (by omega), hi 2 (by omega), hi 3 (by omega)]
  unfold pix30
  rw [e]
  exact enc30_comp F S

theorem wsum30_abs {n m : ℕ} (hn : n ≤ m) {w p : ℕ → ℤ} (hp : ∀ k, 0 ≤ p k ∧ p k ≤ 1023)
    (hO : (∑ k ∈ range m, |w k|) * 1023 + 2 ^ 14 < 2 ^ 31) : i32 (16384 + wsum n w p) = 16384 + wsum n w p := by
  have h := wsum_abs_le (n := n) (w := w) (p := p) (M := 1023) (fun k _ => by simpa using hp k)
  have h2 : (∑ k ∈ range n, |w k|) ≤ ∑ k ∈ range m, |w k| :=
    sum_le_sum_of_subset_of_nonneg (range_mono hn) (fun _ _ _ => abs_nonneg _)
  push_cast at h
  have h3 : |wsum n w p| ≤ (∑ k ∈ range m, |w k|) * 1023 := le_trans h (by linarith)
  have := abs_le.1 h3
  unfold i32
  apply Int.bmod_eq_of_le <;> omega

/-- Fixed point sum of the first `n` taps of window `x` over a row of samples `f`, with `i32` wrap-around. -/
def sumH30 (F : Fmt30) (q : FilterWeights ℤ) (n : ℕ) (f : ℕ → ℕ) (x c : ℕ) : ℤ :=
  i32 (16384 + wsum n (fun k => (q.kernel x).getD k 0)
    (fun k => ((raw30 F (fun i => f (((q.bound x).start + k) * 4 + i)) c : ℕ) : ℤ)))

/-- The bytes written by the horizontal pass, overflow included. -/
theorem horizontal30_raw (F : Fmt30) {src dst : List ℕ} {ss ds H inn out : ℕ} {fw : FilterWeights ℚ}
    (hin : 0 < inn) (hout : 0 < out) (hs : src.length = H * ss) (hd : dst.length = H * ds)
    (hss : inn * 4 ≤ ss) (hds : out * 4 ≤ ds) (hT : ValidTable fw inn out) (hP : PlainShape fw out)
    :
    ∃ r, horizontal30 F src ss fw dst ds = some r ∧ r.length = dst.length ∧
      (∀ y x i, y < H → x < out → i < 4 → r[y * ds + x * 4 + i]? =
        some (enc30 F (sumH30 F (numericalApproximation F32.rnd fw) (taps30 H y (fw.bound x).size)
          (fun i => src.getD (y * ss + i) 0) x) i)) ∧
      (∀ y p, y < H → out * 4 ≤ p → p < ds → r[y * ds + p]? = dst[y * ds + p]?) := by
  have hQ : ValidTable (numericalApproximation F32.rnd fw) inn out := hP.q_valid hT
  have hbd : ∀ i, (numericalApproximation F32.rnd fw).bound i = fw.bound i := fun _ => rfl
  unfold horizontal30
  generalize hq : numericalApproximation F32.rnd fw = q at *
  have hkl : ∀ x, x < out → (q.bound x).size ≤ (q.kernel x).length := fun x hx => by
    rw [hQ.shape.kernel_length hx]; exact hQ.size_le x hx
  have hins : ∀ x, x < out → ((q.bound x).start + (q.bound x).size) * 4 ≤ ss :=
    fun x hx => le_trans (Nat.mul_le_mul_right _ (hQ.inside x hx)) hss
  let sumv : ℕ → (ℕ → ℕ) → ℕ → ℕ → ℤ := fun n f x c => sumH30 F q n f x c
  let val4 : (ℕ → ℕ) → ℕ → ℕ → ℕ := fun f x c => enc30 F (sumv (q.bound x).size f x) c
  let val1 : (ℕ → ℕ) → ℕ → ℕ → ℕ := fun f x c => enc30 F (sumv (taps1 (q.bound x).size) f x) c
  have loc : ∀ (n : ℕ) (f g : ℕ → ℕ) x, x < out → n ≤ (q.bound x).size → (∀ i, i < ss → f i = g i) →
      sumv n f x = sumv n g x := by
    intro n f g x hx hn h
    funext c
    simp only [sumv, sumH30]
    congr 2
    apply wsum_congr (fun _ _ => rfl)
    intro k hk
    refine congrArg _ (raw30_congr F (fun i hi => h _ ?_) c)
    have := hins x hx
    omega
  have ok : HOK 4 ss ds out 0 val1 (fun s d => row30 F s d q) := by
    refine ⟨fun f g x c hx _ h => ?_, ?_⟩
    · simp only [val1]
      rw [loc _ f g x hx (taps1_le _) h]
    intro s d hsl hdl
    obtain ⟨r, h1, h2, h3, h4⟩ := row30_spec F (src := s) (dst := d) hQ.shape (by omega)
      (val := fun x => hSum30 F s 0 (q.kernel x) (q.bound x).start (taps1 (q.bound x).size))
      (fun x hx => row30Sums_eq F (hQ.size_pos x hx) (by have := hins x hx; omega) (hkl x hx))
    refine ⟨r, h1, by omega, ?_, h4⟩
    intro x c hx hc
    rw [h3 x c hx hc]
    simp only [val1, sumv, sumH30]
    refine congrArg (fun t => some (enc30 F t c)) ?_
    funext c'
    simp only [hSum30, Nat.zero_add]
  have ok4 : H4OK 4 ss ds out 0 val4 (fun s ss d ds => rows4_30 F s ss d ds q) := by
    intro s d hsl hdl
    obtain ⟨r, h1, h2, h3, h4⟩ := rows4_30_spec F (src := s) (dst := d) (ss := ss) (stride := ds) hQ.shape hdl hds
      (val := fun x qq => hSum30 F s (ss * qq) (q.kernel x) (q.bound x).start (q.bound x).size)
      (fun x hx => rows4_30Sums_eq F (hQ.size_pos x hx) (by have := hins x hx; omega) (hkl x hx))
    refine ⟨r, h1, by omega, ?_, h4⟩
    intro qq x c hqq hx hc
    rw [h3 qq x c hqq hx hc]
    simp only [val4, sumv, sumH30]
    refine congrArg (fun t => some (enc30 F t c)) ?_
    funext c'
    simp only [hSum30, Nat.add_assoc]
  have hss0 : 0 < ss := by omega
  have hds0 : 0 < ds := by omega
  obtain ⟨r, e1, e2, e3, e4⟩ := horizontalDispatch_spec2 (H := H) ok ok4
    (fun f g x c hx _ h => by simp only [val4]; rw [loc _ f g x hx (le_refl _) h])
    (src := image30 src 0 0 ss) (dst := image30 dst 0 0 ds) (image30_stride hss0) (image30_stride hds0) hss0 hds0 hds hs hd
  refine ⟨r, by dsimp only; rw [e1]; rfl, e2, fun y x i hy hx hi => ?_, e4⟩
  rw [e3 y x i hy hx hi, ← hbd x]
  unfold taps30
  split_ifs <;> rfl

theorem horizontal30_spec (F : Fmt30) {src dst : List ℕ} {ss ds H inn out : ℕ} {fw : FilterWeights ℚ}
    (hin : 0 < inn) (hout : 0 < out) (hs : src.length = H * ss) (hd : dst.length = H * ds)
    (hss : inn * 4 ≤ ss) (hds : out * 4 ≤ ds) (hT : ValidTable fw inn out) (hP : PlainShape fw out)
    (hO : NoOverflow (numericalApproximation F32.rnd fw) out 1023) (hb : ∀ v ∈ src, v < 256) :
    ∃ r, horizontal30 F src ss fw dst ds = some r ∧ r.length = dst.length ∧
      (∀ y x c, y < H → x < out → c < 3 → pix30 F r ds y x c =
        fixedRound 1023 (taps30 H y (fw.bound x).size) (fun k => (numericalApproximation F32.rnd fw).weight x k)
          (fun k => pix30 F src ss y ((fw.bound x).start + k) c)) ∧
      (∀ y x, y < H → x < out → pix30 F r ds y x 3 = 3) ∧
      (∀ y p, y < H → out * 4 ≤ p → p < ds → r[y * ds + p]? = dst[y * ds + p]?) := by
  have hQ : ValidTable (numericalApproximation F32.rnd fw) inn out := hP.q_valid hT
  have hbd : ∀ i, (numericalApproximation F32.rnd fw).bound i = fw.bound i := fun _ => rfl
  obtain ⟨r, e1, e2, e3, e4⟩ := horizontal30_raw F hin hout hs hd hss hds hT hP
  generalize hq : numericalApproximation F32.rnd fw = q at *
  let sumv : ℕ → (ℕ → ℕ) → ℕ → ℕ → ℤ := fun n f x c => sumH30 F q n f x c
  refine ⟨r, e1, e2, ?_⟩
  have hpix : ∀ y x, y < H → x < out →
      (∀ c, c < 3 → pix30 F r ds y x c =
        saturate30 1023 (sumv (taps30 H y (q.bound x).size) (fun i => src.getD (y * ss + i) 0) x c)) ∧
      pix30 F r ds y x 3 = 3 := by
    intro y x hy hx
    apply pix30_of_bytes
    intro i hi
    rw [e3 y x i hy hx hi, ← hbd x]
  refine ⟨fun y x c hy hx hc => ?_, fun y x hy hx => (hpix y x hy hx).2, e4⟩
  rw [(hpix y x hy hx).1 c hc]
  simp only [sumv, sumH30]
  have hwt : ∀ k, k < taps30 H y (q.bound x).size → (q.kernel x).getD k 0 = q.weight x k := fun k hk =>
    FilterWeights.kernel_getD q x k 0 (by have := hQ.size_le x hx; have := taps30_le H y (q.bound x).size; omega)
  rw [wsum_congr hwt (fun k _ => rfl),
    wsum30_abs (taps30_le H y (q.bound x).size) (fun k => ⟨Int.natCast_nonneg _, by exact_mod_cast raw30_le F _ c⟩) (hO x hx),
    saturate30_round]
  unfold fixedRound
  congr 2
  rw [hbd]
  apply wsum_congr (fun _ _ => rfl)
  intro k hk
  refine congrArg (fun t : ℕ => (t : ℤ)) ?_
  have hlt : ∀ i, src.getD i 0 < 256 := fun i =>
    lt_of_le_of_lt (getD_le_of_forall (M := 255) (fun v hv => by have := hb v hv; omega) i) (by norm_num)
  rw [raw30_eq F (fun i => hlt _) hc]
  simp only [pix30, Nat.add_assoc]

/-- The bytes written by the vertical pass, overflow included. -/
theorem vertical30_raw (F : Fmt30) {src dst : List ℕ} {ss ds width inn out : ℕ} {fw : FilterWeights ℚ}
    (hw0 : 0 < width) (hs : src.length = inn * ss) (hd : dst.length = out * ds)
    (hss : width * 4 ≤ ss) (hds : width * 4 ≤ ds) (hT : ValidTable fw inn out) (hP : PlainShape fw out)
    :
    ∃ r, vertical30 F src ss fw dst ds width = some r ∧ r.length = dst.length ∧
      (∀ y p, y < out → p < width * 4 → r[y * ds + p]? =
        some (enc30 F (vSum30 F src ss ((numericalApproximation F32.rnd fw).weights.drop
          (y * (numericalApproximation F32.rnd fw).alignedSize)) (fw.bound y) (p / 4)) (p % 4))) ∧
      (∀ y p, y < out → width * 4 ≤ p → p < ds → r[y * ds + p]? = dst[y * ds + p]?) := by
  have hQ : ValidTable (numericalApproximation F32.rnd fw) inn out := hP.q_valid hT
  have hbd : ∀ i, (numericalApproximation F32.rnd fw).bound i = fw.bound i := fun _ => rfl
  unfold vertical30
  generalize hq : numericalApproximation F32.rnd fw = q at *
  let S : ℕ → ℕ → ℕ → ℤ := fun y x => vSum30 F src ss (q.weights.drop (y * q.alignedSize)) (q.bound y) x
  have ok : VOK ss (width * 4) src q.bounds q.alignedSize q.weights (fun b s d ss w => column30 F b s d ss w) out
      (fun y p => enc30 F (S y (p / 4)) (p % 4)) := by
    intro y b hy hbb d hdl
    have hbe : b = q.bound y := (getD_eq_of_getElem? hbb).symm
    subst hbe
    have hsz := hQ.size_pos y hy
    have hal : (y + 1) * q.alignedSize ≤ out * q.alignedSize := Nat.mul_le_mul_right _ hy
    rw [Nat.add_mul] at hal
    have hlen := hQ.weights_len
    have hle := hQ.size_le y hy
    have hrow : ((q.bound y).start + (q.bound y).size - 1) * ss + width * 4 ≤ src.length := by
      have h1 := hQ.inside y hy
      have h2 : ((q.bound y).start + (q.bound y).size - 1 + 1) * ss ≤ inn * ss := Nat.mul_le_mul_right _ (by omega)
      rw [Nat.add_mul] at h2
      omega
    obtain ⟨r, h1, h2, h3⟩ := column30_spec F (src := src) (dst := d) (stride := ss) (width := width)
      (w := q.weights.drop (y * q.alignedSize)) (b := q.bound y) hsz
      (by rw [List.length_drop]; omega) hdl hrow
    exact ⟨r, h1, by omega, fun p hp => h3 p (by omega)⟩
  have hss0 : 0 < ss := by omega
  have hds0 : 0 < ds := by omega
  obtain ⟨r, e1, e2, e3, e4⟩ := verticalDispatch_spec (W := ℤ) (aligned := q.alignedSize)
    (weights := q.weights) (src := image30 src 0 0 ss) (dst := image30 dst width 0 ds) (N := 4)
    (image30_stride hss0) (image30_stride hds0) hds0 hds hd hQ.bounds_len (le_of_eq hQ.weights_len.symm) ok
  simp only [image30] at e3 e4
  refine ⟨r, ?_, e2, fun y p hy hp => by rw [e3 y p hy hp, ← hbd y], e4⟩
  show ((verticalDispatch 4 (image30 src 0 0 ss) (image30 dst width 0 ds) q.bounds q.alignedSize q.weights
      (fun b s d ss w => column30 F b s d ss w)).bind fun d => some d.buffer) = some r
  rw [e1]; rfl

theorem vertical30_spec (F : Fmt30) {src dst : List ℕ} {ss ds width inn out : ℕ} {fw : FilterWeights ℚ}
    (hw0 : 0 < width) (hs : src.length = inn * ss) (hd : dst.length = out * ds)
    (hss : width * 4 ≤ ss) (hds : width * 4 ≤ ds) (hT : ValidTable fw inn out) (hP : PlainShape fw out)
    (hO : NoOverflow (numericalApproximation F32.rnd fw) out 1023) (hb : ∀ v ∈ src, v < 256) :
    ∃ r, vertical30 F src ss fw dst ds width = some r ∧ r.length = dst.length ∧
      (∀ y x c, y < out → x < width → c < 3 → pix30 F r ds y x c =
        fixedRound 1023 (fw.bound y).size (fun k => (numericalApproximation F32.rnd fw).weight y k)
          (fun k => pix30 F src ss ((fw.bound y).start + k) x c)) ∧
      (∀ y x, y < out → x < width → pix30 F r ds y x 3 = 3) ∧
      (∀ y p, y < out → p < width * 4 → r.getD (y * ds + p) 0 < 256) ∧
      (∀ y p, y < out → width * 4 ≤ p → p < ds → r[y * ds + p]? = dst[y * ds + p]?) := by
  have hQ : ValidTable (numericalApproximation F32.rnd fw) inn out := hP.q_valid hT
  have hbd : ∀ i, (numericalApproximation F32.rnd fw).bound i = fw.bound i := fun _ => rfl
  obtain ⟨r, e1, e2, e3, e4⟩ := vertical30_raw F hw0 hs hd hss hds hT hP
  generalize hq : numericalApproximation F32.rnd fw = q at *
  let S : ℕ → ℕ → ℕ → ℤ := fun y x => vSum30 F src ss (q.weights.drop (y * q.alignedSize)) (q.bound y) x
  have hpix : ∀ y x, y < out → x < width →
      (∀ c, c < 3 → pix30 F r ds y x c = saturate30 1023 (S y x c)) ∧ pix30 F r ds y x 3 = 3 := by
    intro y x hy hx
    apply pix30_of_bytes
    intro i hi
    rw [Nat.add_assoc, e3 y (x * 4 + i) hy (by omega), show (x * 4 + i) / 4 = x by omega, show (x * 4 + i) % 4 = i by omega, ← hbd y]
  refine ⟨r, e1, e2, fun y x c hy hx hc => ?_, fun y x hy hx => (hpix y x hy hx).2, ?_, e4⟩
  · rw [(hpix y x hy hx).1 c hc]
    simp only [S, vSum30]
    have hwt : ∀ k, k < (q.bound y).size → (q.weights.drop (y * q.alignedSize)).getD k 0 = q.weight y k := fun k hk => by
      simp [FilterWeights.weight, List.getD_eq_getElem?_getD, List.getElem?_drop]
    rw [wsum_congr hwt (fun k _ => rfl),
      wsum30_abs (le_refl _) (fun k => ⟨Int.natCast_nonneg _, by exact_mod_cast raw30_le F _ c⟩) (hO y hy),
      saturate30_round]
    unfold fixedRound
    congr 2
    rw [hbd]
    apply wsum_congr (fun _ _ => rfl)
    intro k hk
    refine congrArg (fun t : ℕ => (t : ℤ)) ?_
    have hlt : ∀ i, src.getD i 0 < 256 := fun i =>
      lt_of_le_of_lt (getD_le_of_forall (M := 255) (fun v hv => by have := hb v hv; omega) i) (by norm_num)
    rw [raw30_eq F (fun i => hlt _) hc]
    rfl
  · intro y p hy hp
    rw [List.getD_eq_getElem?_getD, e3 y p hy hp]
    exact enc30_lt _ _ _

end PicScale
