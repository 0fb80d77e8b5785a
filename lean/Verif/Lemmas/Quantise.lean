import Verif.Lemmas.WeightSums

namespace PicScale

variable {ρ : ℚ → ℚ}

theorem chunks_flatMap {α β : Type} (g : α → β) (n : ℕ) : ∀ (m : ℕ) (l : List α), l.length = m * n →
    (List.range m).flatMap (fun i => ((l.drop (i * n)).take n).map g) = l.map g
  | 0, l, h => by
    have : l = [] := List.eq_nil_of_length_eq_zero (by simpa using h)
    simp [this]
  | m + 1, l, h => by
    have hl : (l.take (m * n)).length = m * n := by simp [h, Nat.add_mul]
    have ih := chunks_flatMap g n m (l.take (m * n)) hl
    rw [List.range_succ, List.flatMap_append]
    have e : (List.range m).flatMap (fun i => ((l.drop (i * n)).take n).map g) =
        (List.range m).flatMap (fun i => (((l.take (m * n)).drop (i * n)).take n).map g) := by
      rw [List.flatMap_def, List.flatMap_def]
      congr 1
      refine List.map_congr_left fun i hi => ?_
      rw [List.mem_range] at hi
      congr 1
      rw [List.drop_take, List.take_take]
      congr 1
      have : (i + 1) * n ≤ m * n := Nat.mul_le_mul_right _ hi
      have h2 : m * n - i * n ≥ n := by
        rw [Nat.add_mul] at this; omega
      omega
    rw [e, ih, List.flatMap_singleton, ← List.map_append]
    congr 1
    have : (l.drop (m * n)).take n = l.drop (m * n) := by
      rw [List.take_of_length_le]
      rw [List.length_drop, h, Nat.add_mul]; omega
    rw [this, List.take_append_drop]

theorem overwrite_eq {α : Type} : ∀ (s d : List α), s.length = d.length → overwrite s d = s
  | [], [], _ => rfl
  | [], _ :: _, h => by simp at h
  | _ :: _, [], h => by simp at h
  | a :: s, b :: d, h => by
    simp only [List.length_cons, Nat.add_right_cancel_iff] at h
    simp [overwrite, overwrite_eq s d h]

theorem numericalApproximation_weights (fw : FilterWeights ℚ) (hk : 0 < fw.kernelSize)
    (hl : fw.weights.length = fw.distinctElements * fw.kernelSize) :
    (numericalApproximation ρ fw).weights = fw.weights.map (quantise ρ) := by
  unfold numericalApproximation
  have e1 : (List.replicate (fw.distinctElements * fw.kernelSize) (0 : ℤ)).length / fw.kernelSize =
      fw.distinctElements := by
    rw [List.length_replicate, Nat.mul_div_cancel _ hk]
  have e2 : (chunksExact fw.kernelSize fw.weights).length = fw.distinctElements := by
    rw [chunksExact_length, hl, Nat.mul_div_cancel _ hk]
  simp only [e1]
  rw [List.take_of_length_le (by omega)]
  have e3 : (chunksExact fw.kernelSize fw.weights).flatMap (fun c => c.map (quantise ρ)) =
      fw.weights.map (quantise ρ) := by
    unfold chunksExact
    rw [List.flatMap_map, hl, Nat.mul_div_cancel _ hk]
    exact chunks_flatMap _ _ _ _ hl
  rw [e3, overwrite_eq]
  simp [hl]

theorem F32.Rep.scale {w : ℚ} (h : F32.Rep w) : F32.Rep (w * 32768) := by
  obtain ⟨m, e, rfl, hm, he⟩ := h
  refine ⟨m, e + 15, ?_, hm, by omega⟩
  rw [zpow_add₀ (by norm_num)]
  norm_num
  ring

/-- `f32::round` is within half a unit. -/
theorem F32.round_err (q : ℚ) : |(F32.round q : ℚ) - q| ≤ 1 / 2 := by
  unfold F32.round
  split_ifs with h
  · rw [abs_le]
    have := Int.floor_le (q + 1 / 2)
    have := Int.lt_floor_add_one (q + 1 / 2)
    constructor <;> linarith
  · rw [abs_le]
    push_cast
    have := Int.floor_le (-q + 1 / 2)
    have := Int.lt_floor_add_one (-q + 1 / 2)
    constructor <;> linarith

theorem F32.round_mono {a b : ℚ} (h : a ≤ b) : F32.round a ≤ F32.round b := by
  unfold F32.round
  split_ifs with h1 h2 h2
  · exact Int.floor_mono (by linarith)
  · exact absurd (le_trans h1 h) h2
  · have h3 : (0 : ℤ) ≤ ⌊-a + 1 / 2⌋ := Int.floor_nonneg.2 (by linarith)
    have h4 : (0 : ℤ) ≤ ⌊b + 1 / 2⌋ := Int.floor_nonneg.2 (by linarith)
    omega
  · have : ⌊-b + 1 / 2⌋ ≤ ⌊-a + 1 / 2⌋ := Int.floor_mono (by linarith)
    omega

theorem quantise_range (w : ℚ) : -32768 ≤ quantise ρ w ∧ quantise ρ w ≤ 32767 := by
  unfold quantise; omega

theorem quantise_mono (h : RoundOK ρ) {a b : ℚ} (hab : a ≤ b) : quantise ρ a ≤ quantise ρ b := by
  have := F32.round_mono (h.mono (show a * 32768 ≤ b * 32768 by linarith))
  unfold quantise; omega

theorem quantise_zero (h : RoundOK ρ) : quantise ρ 0 = 0 := by
  unfold quantise
  rw [zero_mul, h.zero]
  unfold F32.round
  norm_num

theorem quantise_nonneg (h : RoundOK ρ) {w : ℚ} (hw : 0 ≤ w) : 0 ≤ quantise ρ w := by
  have := quantise_mono h hw
  rwa [quantise_zero h] at this

theorem quantise_err {w : ℚ} (hr : F32.Rep w) (h1 : -1 ≤ w) (h2 : w ≤ 32767 / 32768) :
    |(quantise F32.rnd w : ℚ) - w * 32768| ≤ 1 / 2 := by
  unfold quantise
  rw [hr.scale.rnd]
  have he := F32.round_err (w * 32768)
  have l1 : F32.round (-32768 : ℚ) ≤ F32.round (w * 32768) := F32.round_mono (by linarith)
  have l2 : F32.round (w * 32768) ≤ F32.round (32767 : ℚ) := F32.round_mono (by linarith)
  have e1 : F32.round (-32768 : ℚ) = -32768 := by unfold F32.round; norm_num
  have e2 : F32.round (32767 : ℚ) = 32767 := by
    unfold F32.round
    rw [if_pos (by norm_num), Int.floor_eq_iff]; norm_num
  rw [e1] at l1; rw [e2] at l2
  have : max (min (F32.round (w * 32768)) 32767) (-32768) = F32.round (w * 32768) := by omega
  rw [this]; exact he

end PicScale

namespace PicScale

/-- The shape every generated table has. -/
def PlainShape {W : Type} (fw : FilterWeights W) (out : ℕ) : Prop :=
  fw.kernelSize = fw.alignedSize ∧ fw.distinctElements = out

theorem PlainShape.q_weights {ρ : ℚ → ℚ} {fw : FilterWeights ℚ} {inn out : ℕ} (h : PlainShape fw out)
    (v : ValidTable fw inn out) : (numericalApproximation ρ fw).weights = fw.weights.map (quantise ρ) :=
  numericalApproximation_weights (ρ := ρ) fw (by rw [h.1]; exact v.aligned_pos)
    (by rw [v.weights_len, h.1, h.2])

theorem PlainShape.q_valid {ρ : ℚ → ℚ} {fw : FilterWeights ℚ} {inn out : ℕ} (h : PlainShape fw out)
    (v : ValidTable fw inn out) : ValidTable (numericalApproximation ρ fw) inn out := by
  refine ⟨v.bounds_len, by rw [h.q_weights v, List.length_map, v.weights_len, ← h.1]; rfl, ?_, v.size_pos, ?_, v.inside⟩
  · show 0 < fw.kernelSize
    rw [h.1]; exact v.aligned_pos
  · intro i hi
    show (fw.bound i).size ≤ fw.kernelSize
    rw [h.1]; exact v.size_le i hi

theorem PlainShape.q_weight {ρ : ℚ → ℚ} (hρ : RoundOK ρ) {fw : FilterWeights ℚ} {inn out : ℕ}
    (h : PlainShape fw out) (v : ValidTable fw inn out) (i k : ℕ) :
    (numericalApproximation ρ fw).weight i k = quantise ρ (fw.weight i k) := by
  unfold FilterWeights.weight
  rw [h.q_weights v]
  have : (numericalApproximation ρ fw).alignedSize = fw.alignedSize := h.1
  rw [this, List.getD_eq_getElem?_getD, List.getD_eq_getElem?_getD, List.getElem?_map]
  cases fw.weights[i * fw.alignedSize + k]? with
  | none => simp [quantise_zero hρ]
  | some w => rfl

theorem weight_nonneg_of {fw : FilterWeights ℚ} (h : ∀ w ∈ fw.weights, 0 ≤ w) (i k : ℕ) : 0 ≤ fw.weight i k := by
  unfold FilterWeights.weight
  rw [List.getD_eq_getElem?_getD]
  cases hh : fw.weights[i * fw.alignedSize + k]? with
  | none => exact le_refl _
  | some w => exact h w (List.mem_of_getElem? hh)

end PicScale
