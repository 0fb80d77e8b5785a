import Verif.Lemmas.BilinearRows

/-!
The rows of the weight table of `Box` and `Area` for reductions by a whole number.
-/

namespace PicScale

open F32 Spec

theorem sumF_ones (n : ℕ) (hn : n ≤ 2 ^ 24) : sumF rnd (List.replicate n 1) = n := by
  have : ∀ m a : ℕ, a + m ≤ 2 ^ 24 → (List.replicate m (1 : ℚ)).foldl (fun s w => rnd (s + w)) a = (a + m : ℕ) := by
    intro m
    induction m with
    | zero => intro a _; rfl
    | succ m ih =>
      intro a ha
      rw [List.replicate_succ, List.foldl_cons]
      have e : (a : ℚ) + 1 = ((a + 1 : ℕ) : ℚ) := by push_cast; ring
      rw [e, RoundOK.rnd.nat (by omega), ih (a + 1) (by omega)]
      congr 1; omega
  have h := this n 0 (by omega)
  unfold sumF
  simpa using h

section box

variable {L : Lib} {r : ResamplingFunction} {inn out n : ℕ}

theorem box_kernel (hr : r = .box ∨ r = .area) (h : DyadicRatio inn out n 0) :
    wKernelSize rnd (filterOf rnd L r) inn out = 2 * n := by
  have hm : (filterOf rnd L r).minKernelSize = 2 := by rcases hr with rfl | rfl <;> rfl
  have hres : (filterOf rnd L r).isResizable = true := by rcases hr with rfl | rfl <;> rfl
  have hn : n ≤ 2 ^ 23 := by have := h.outP_le; have := h.out_pos; nlinarith
  have h1 : (1 : ℚ) ≤ n := by exact_mod_cast h.P_pos
  unfold wKernelSize wCutoff
  rw [if_pos hres, hm, h.wScale_eq, pow_zero, div_one, max_eq_left h1]
  have e : (2 : ℚ) * n = ((2 * n : ℕ) : ℚ) := by push_cast; ring
  rw [e, RoundOK.rnd.nat (by omega)]
  have := round_int ((2 * n : ℕ) : ℤ) (by positivity)
  rw [Int.cast_natCast] at this
  rw [this]; unfold F32.toUsize; omega

theorem box_window (hr : r = .box ∨ r = .area) (h : DyadicRatio inn out n 0) {i : ℕ} (hi : i < out) :
    wStart rnd (filterOf rnd L r) inn out i = boxFirst n i ∧ wEnd rnd (filterOf rnd L r) inn out i = boxLast inn n i := by
  have hk := box_kernel (L := L) hr h
  have hn : n ≤ 2 ^ 23 := by have := h.outP_le; have := h.out_pos; nlinarith
  have hn1 := h.P_pos
  obtain ⟨S, E⟩ := window_eq (f := filterOf rnd L r) h hi (by rw [hk]; omega)
  rw [hk, h.wCenter_eq hi] at S E
  have e1 : (((2 * i + 1) * n : ℕ) : ℚ) / 2 ^ (0 + 1) - ((2 * n : ℕ) : ℚ) / 2 = ((((2 * i * n : ℕ) : ℤ) - n : ℤ) : ℚ) / (2 : ℕ) := by
    push_cast; ring
  have e2 : (((2 * i + 1) * n : ℕ) : ℚ) / 2 ^ (0 + 1) + ((2 * n : ℕ) : ℚ) / 2 = ((((2 * i * n : ℕ) : ℤ) + 3 * n : ℤ) : ℚ) / (2 : ℕ) := by
    push_cast; ring
  rw [e1, Rat.floor_intCast_div_natCast] at S
  rw [e2, Rat.ceil_intCast_div_natCast] at E
  unfold boxLast boxFirst
  have hz : i = 0 ∨ n ≤ 2 * i * n / 2 := by
    rcases Nat.eq_zero_or_pos i with h0 | h0
    · exact Or.inl h0
    · right
      rw [mul_assoc, Nat.mul_div_cancel_left _ (by norm_num)]
      nlinarith
  generalize hA : 2 * i * n = A at *
  rcases hz with h0 | h0
  · subst h0
    have hA0 : A = 0 := by rw [← hA]; ring
    subst hA0
    rw [if_pos rfl]
    constructor <;> omega
  · have hi0 : i ≠ 0 := by
      rintro rfl
      have : A = 0 := by rw [← hA]; ring
      omega
    rw [if_neg hi0]
    constructor <;> omega

/-- All taps of a window have the same weight. -/
theorem box_row (hr : r = .box ∨ r = .area) {i : ℕ} (hs : wEnd rnd (filterOf rnd L r) inn out i ≤ 2 ^ 24) :
    genRow rnd (filterOf rnd L r) inn out i =
      List.replicate (genBound rnd (filterOf rnd L r) inn out i).size (rnd (1 / (genBound rnd (filterOf rnd L r) inn out i).size)) := by
  have hraw : rawRow rnd (filterOf rnd L r) inn out i = List.replicate (genBound rnd (filterOf rnd L r) inn out i).size 1 := by
    unfold rawRow genBound
    rw [List.eq_replicate_iff]
    refine ⟨by simp, fun b hb => ?_⟩
    rw [List.mem_map] at hb
    obtain ⟨j, _, rfl⟩ := hb
    rcases hr with rfl | rfl <;> rfl
  have he : (filterOf rnd L r).isEwa = false := by rcases hr with rfl | rfl <;> rfl
  rw [genRow_of he hraw]
  have hb : (genBound rnd (filterOf rnd L r) inn out i).size ≤ 2 ^ 24 := by
    show _ - _ ≤ _
    omega
  generalize (genBound rnd (filterOf rnd L r) inn out i).size = m at *
  rw [sumF_ones m hb]
  unfold normRow
  rcases Nat.eq_zero_or_pos m with rfl | hm
  · simp
  · rw [if_pos (by simp; omega)]
    simp only [List.map_replicate, one_mul]
    rw [(rep_rnd _).rnd]

end box

/-- The quantised weight of one of `m` equal taps. -/
theorem q_equal {m : ℕ} (h2 : 2 ≤ m) (hm : m ≤ 2 ^ 24) : |(quantise rnd (rnd (1 / (m : ℚ))) : ℚ) - 32768 / m| ≤ 1 / 2 + 1 / 256 := by
  have hm0 : (2 : ℚ) ≤ m := by exact_mod_cast h2
  have hm1 : (m : ℚ) ≤ 2 ^ 24 := by exact_mod_cast hm
  have a0 : (0 : ℚ) < 1 / m := by positivity
  have a1 : 1 / (m : ℚ) ≤ 1 / 2 := by
    rw [div_le_div_iff₀ (by linarith) (by norm_num)]; linarith
  have a2 : 1 / 2 ^ 24 ≤ 1 / (m : ℚ) := by
    rw [div_le_div_iff₀ (by norm_num) (by linarith)]; linarith
  have b := rnd_err_rel (q := 1 / (m : ℚ)) (by rw [abs_of_pos a0]; refine le_trans ?_ a2; norm_num)
  rw [abs_of_pos a0, abs_le] at b
  have b1 : rnd (1 / (m : ℚ)) ≤ 1 / 2 := rnd_le ⟨1, -1, by norm_num, by norm_num, by norm_num⟩ a1
  have b2 : 1 / 2 ^ 24 ≤ rnd (1 / (m : ℚ)) := le_rnd ⟨1, -24, by norm_num, by norm_num, by norm_num⟩ a2
  generalize hx : rnd (1 / (m : ℚ)) = x at *
  have c := rnd_err_rel (q := x * 32768) (by
    rw [abs_of_pos (by norm_num at b2; linarith)]; norm_num at b2 ⊢; linarith)
  rw [abs_of_pos (show 0 < x * 32768 by norm_num at b2; linarith), abs_le] at c
  have c1 : rnd (x * 32768) ≤ 16384 := rnd_le ⟨16384, 0, by norm_num, by norm_num, by norm_num⟩ (by linarith)
  have c0 : 0 ≤ rnd (x * 32768) := by
    have := c.1
    norm_num at b2 this; linarith
  generalize hy : rnd (x * 32768) = y at *
  have d : |(F32.round y : ℚ) - y| ≤ 1 / 2 := by
    unfold F32.round
    rw [if_pos c0]
    have f1 := Int.floor_le (y + 1 / 2)
    have f2 := Int.lt_floor_add_one (y + 1 / 2)
    rw [abs_le]; constructor <;> linarith
  rw [abs_le] at d
  have e0 : 0 ≤ F32.round y := by
    unfold F32.round; rw [if_pos c0]; exact Int.floor_nonneg.2 (by linarith)
  have e1 : F32.round y ≤ 16384 := by
    have : (F32.round y : ℚ) < 16385 := by linarith [d.2]
    have : F32.round y < 16385 := by exact_mod_cast this
    omega
  have hq : quantise rnd x = F32.round y := by
    unfold quantise
    rw [hy]
    omega
  rw [hq, abs_le]
  have k1 : 32768 * (1 / (m : ℚ)) = 32768 / m := by ring
  have k2 : (1 / (m : ℚ)) / 2 ^ 24 ≤ 1 / 2 / 2 ^ 24 := by
    apply div_le_div_of_nonneg_right a1 (by norm_num)
  norm_num at b c k2 d ⊢
  norm_num at k1 b1
  constructor <;> linarith [b.1, b.2, c.1, c.2, d.1, d.2]

end PicScale
