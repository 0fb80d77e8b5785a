import Verif.Lemmas.Dyadic
import Verif.Lemmas.Quantise

/-!
The rows of the weight table of `Bilinear` for enlargements by powers of two.
-/

namespace PicScale

open F32 Spec

/-- Normalising a single weight gives (the quantisation of) one. -/
theorem q_one {v : ℚ} (h1 : 1 / 2 ≤ v) (h2 : v ≤ 1) : quantise rnd (rnd (v * rnd (1 / v))) = 32767 := by
  have hv : 0 < v := by linarith
  have a1 : 1 ≤ 1 / v := by rw [le_div_iff₀ hv]; linarith
  have a2 := rnd_err_rel (q := 1 / v) (by rw [abs_of_nonneg (by positivity)]; refine le_trans ?_ a1; norm_num)
  rw [abs_of_nonneg (show (0 : ℚ) ≤ 1 / v by positivity), abs_le] at a2
  have a3 : 1 - 1 / 2 ^ 24 ≤ v * rnd (1 / v) := by
    have : v * (1 / v) = 1 := by field_simp
    have e : v * (1 / v / 2 ^ 24) = 1 / 2 ^ 24 := by field_simp
    nlinarith [mul_le_mul_of_nonneg_left a2.1 hv.le]
  have a4 : 1 - 1 / 2 ^ 24 ≤ rnd (v * rnd (1 / v)) := by
    have hr : Rep (1 - 1 / 2 ^ 24 : ℚ) := ⟨2 ^ 24 - 1, -24, by norm_num, by norm_num, by norm_num⟩
    exact le_rnd hr a3
  have a5 : 32768 - 1 / 2 ^ 9 ≤ rnd (rnd (v * rnd (1 / v)) * 32768) := by
    have hr : Rep (32768 - 1 / 2 ^ 9 : ℚ) := ⟨2 ^ 24 - 1, -9, by norm_num, by norm_num, by norm_num⟩
    refine le_rnd hr ?_
    norm_num at a4 ⊢; linarith
  have a6 : 32767 ≤ F32.round (rnd (rnd (v * rnd (1 / v)) * 32768)) := by
    unfold F32.round
    rw [if_pos (by norm_num at a5 ⊢; linarith), Int.le_floor]
    push_cast; norm_num at a5 ⊢; linarith
  unfold quantise
  omega

theorem round_int (z : ℤ) (hz : 0 ≤ z) : F32.round (z : ℚ) = z := by
  unfold F32.round
  rw [if_pos (by exact_mod_cast hz), Int.floor_eq_iff]
  constructor <;> linarith

/-- Weights that are whole multiples of `2^-15`. -/
theorem q_whole {z : ℤ} (h1 : 0 ≤ z) (h2 : z ≤ 32767) : quantise rnd ((z : ℚ) / 32768) = z := by
  unfold quantise
  rw [show (z : ℚ) / 32768 * 32768 = z by ring, RoundOK.rnd.int z (by rw [abs_of_nonneg h1]; omega), round_int z h1]
  omega

theorem genRow_of {f : Filter} {inn out i : ℕ} (he : f.isEwa = false) {ws : List ℚ} (hw : rawRow rnd f inn out i = ws) :
    genRow rnd f inn out i = normRow rnd (ws, sumF rnd ws) := by
  unfold genRow; rw [hw]; unfold preRow; rw [he]

theorem rawRow_two {f : Filter} {inn out i s : ℕ} (h1 : wStart rnd f inn out i = s) (h2 : wEnd rnd f inn out i = s + 2) :
    rawRow rnd f inn out i = [rawWeight rnd f inn out i s, rawWeight rnd f inn out i (s + 1)] := by
  unfold rawRow
  rw [h1, h2, Nat.add_sub_cancel_left]
  rfl

theorem rawRow_one {f : Filter} {inn out i s : ℕ} (h1 : wStart rnd f inn out i = s) (h2 : wEnd rnd f inn out i = s + 1) :
    rawRow rnd f inn out i = [rawWeight rnd f inn out i s] := by
  unfold rawRow
  rw [h1, h2, Nat.add_sub_cancel_left]
  rfl

/-- Two weights that add up to one are stored as they are. -/
theorem normRow_unit {a b : ℚ} (ha : Rep a) (hb : Rep b) (h : a + b = 1) : normRow rnd ([a, b], sumF rnd [a, b]) = [a, b] := by
  have e : sumF rnd [a, b] = 1 := by
    simp only [sumF, List.foldl_cons, List.foldl_nil, zero_add]
    rw [ha.rnd, h, RoundOK.rnd.one]
  unfold normRow
  rw [e]
  simp only [ne_eq, one_ne_zero, not_false_eq_true, if_true, List.map_cons, List.map_nil, div_one, RoundOK.rnd.one, mul_one]
  rw [ha.rnd, hb.rnd]

/-- A single non-zero weight becomes one. -/
theorem normRow_single {v : ℚ} (hv : Rep v) (h1 : 1 / 2 ≤ v) (h2 : v ≤ 1) (pre post : ℕ) :
    (normRow rnd (List.replicate pre 0 ++ v :: List.replicate post 0, sumF rnd (List.replicate pre 0 ++ v :: List.replicate post 0))).map
      (quantise rnd) = List.replicate pre 0 ++ 32767 :: List.replicate post 0 := by
  have z : ∀ (n : ℕ) (a : ℚ), Rep a → (List.replicate n (0 : ℚ)).foldl (fun s w => rnd (s + w)) a = a := by
    intro n a ha
    induction n with
    | zero => rfl
    | succ n ih => rw [List.replicate_succ, List.foldl_cons, add_zero, ha.rnd, ih]
  have r0 : Rep (0 : ℚ) := ⟨0, 0, by simp, by norm_num, by omega⟩
  have e : sumF rnd (List.replicate pre 0 ++ v :: List.replicate post 0) = v := by
    unfold sumF
    rw [List.foldl_append, z _ _ r0, List.foldl_cons, zero_add, hv.rnd, z _ _ hv]
  unfold normRow
  rw [e]
  have hq0 : quantise rnd 0 = 0 := quantise_zero RoundOK.rnd
  rw [if_pos (by linarith)]
  simp only [List.map_append, List.map_map, List.map_cons, List.map_replicate, Function.comp]
  rw [q_one h1 h2, zero_mul, RoundOK.rnd.zero, hq0]

section bilinear

variable (L : Lib) {inn t : ℕ}

/-- Enlarging `inn` pixels by `2^t`. -/
theorem dyadic_up (h1 : 1 ≤ inn) (hs : inn * 2 ^ (t + 1) ≤ 2 ^ 24) : DyadicRatio inn (inn * 2 ^ t) 1 t :=
  ⟨h1, Nat.one_le_iff_ne_zero.2 (by positivity), by ring, hs⟩

variable (h1 : 1 ≤ inn) (hs : inn * 2 ^ (t + 1) ≤ 2 ^ 24)
include h1 hs

theorem up_cutoff {f : Filter} : wCutoff rnd f inn (inn * 2 ^ t) = 1 := by
  unfold wCutoff
  split_ifs
  · rw [(dyadic_up h1 hs).wScale_eq, max_eq_right]
    rw [div_le_one (by positivity)]
    exact_mod_cast Nat.one_le_two_pow
  · rfl

theorem up_kernel : wKernelSize rnd (filterOf rnd L .bilinear) inn (inn * 2 ^ t) = 2 := by
  unfold wKernelSize
  rw [up_cutoff h1 hs]
  simp only [filterOf, Filter.new]
  decide +kernel

theorem up_centre {k j : ℕ} (hk : k < inn) (hj : j < 2 ^ t) :
    2 ^ t * k + j < inn * 2 ^ t ∧
    wCenter rnd inn (inn * 2 ^ t) (2 ^ t * k + j) = k + (2 * j + 1 : ℚ) / (2 * 2 ^ t) := by
  have hi : 2 ^ t * k + j < inn * 2 ^ t := by
    have : (k + 1) * 2 ^ t ≤ inn * 2 ^ t := Nat.mul_le_mul_right _ hk
    nlinarith
  refine ⟨hi, ?_⟩
  rw [(dyadic_up h1 hs).wCenter_eq hi]
  push_cast; rw [pow_succ]; field_simp; ring

theorem up_raw {k j k' : ℕ} (hk : k < inn) (hj : j < 2 ^ t) (hk' : k' < inn) :
    rawWeight rnd (filterOf rnd L .bilinear) inn (inn * 2 ^ t) (2 ^ t * k + j) k' =
      max 0 (1 - |(k' + 1 / 2 : ℚ) - (k + (2 * j + 1 : ℚ) / (2 * 2 ^ t))|) := by
  obtain ⟨hi, hc⟩ := up_centre h1 hs hk hj
  have hd := (dyadic_up h1 hs).dist_eq hi hk'
  have hfs : wFilterScale rnd (filterOf rnd L .bilinear) inn (inn * 2 ^ t) = 1 := by
    unfold wFilterScale; rw [up_cutoff h1 hs]; norm_num; exact RoundOK.rnd.one
  have ht := (dyadic_up h1 hs).t_le
  unfold rawWeight
  simp only
  rw [hfs, hd, hc]
  simp only [filterOf, Filter.new, mul_one]
  -- the distance is a whole multiple of 2^-(t+1)
  have hsm : (inn * 2 ^ (t + 1) : ℤ) ≤ 2 ^ 24 := by exact_mod_cast hs
  have hT : (2 : ℤ) ^ (t + 1) = 2 * 2 ^ t := by rw [pow_succ]; ring
  have hT0 : (0 : ℤ) < 2 ^ t := by positivity
  have hj' : (j : ℤ) + 1 ≤ 2 ^ t := by exact_mod_cast hj
  have e : (k' + 1 / 2 : ℚ) - (k + (2 * j + 1 : ℚ) / (2 * 2 ^ t)) =
      ((((k' : ℤ) - k) * 2 ^ (t + 1) + 2 ^ t - (2 * j + 1) : ℤ) : ℚ) / 2 ^ (t + 1) := by
    push_cast; rw [pow_succ]; field_simp; ring
  rw [e]
  set z : ℤ := ((k' : ℤ) - k) * 2 ^ (t + 1) + 2 ^ t - (2 * j + 1) with hz
  have hzb : |z| ≤ 2 ^ 24 := by
    have b1 : ((k' : ℤ) + 1) * 2 ^ (t + 1) ≤ inn * 2 ^ (t + 1) := by
      have : (k' : ℤ) + 1 ≤ inn := by exact_mod_cast hk'
      exact mul_le_mul_of_nonneg_right this (by positivity)
    have b2 : ((k : ℤ) + 1) * 2 ^ (t + 1) ≤ inn * 2 ^ (t + 1) := by
      have : (k : ℤ) + 1 ≤ inn := by exact_mod_cast hk
      exact mul_le_mul_of_nonneg_right this (by positivity)
    have b3 : (0 : ℤ) ≤ k' * 2 ^ (t + 1) := by positivity
    have b4 : (0 : ℤ) ≤ k * 2 ^ (t + 1) := by positivity
    have e2 : z = k' * 2 ^ (t + 1) - k * 2 ^ (t + 1) + 2 ^ t - (2 * j + 1) := by rw [hz]; ring
    rw [add_mul] at b1 b2
    rw [e2, abs_le]; constructor <;> omega
  have habs : |(z : ℚ) / 2 ^ (t + 1)| = ((|z| : ℤ) : ℚ) / 2 ^ (t + 1) := by
    rw [abs_div, Int.cast_abs, abs_of_pos (show (0 : ℚ) < 2 ^ (t + 1) by positivity)]
  rw [habs, rnd_dy (by omega) _ (by rw [abs_abs]; exact hzb)]
  unfold Kernel.bilinear
  simp only
  have hnn : (0 : ℚ) ≤ ((|z| : ℤ) : ℚ) / 2 ^ (t + 1) := by
    have : (0 : ℚ) ≤ ((|z| : ℤ) : ℚ) := by exact_mod_cast abs_nonneg z
    positivity
  rw [abs_of_nonneg hnn]
  split_ifs with hlt
  · have e3 : 1 - ((|z| : ℤ) : ℚ) / 2 ^ (t + 1) = ((2 ^ (t + 1) - |z| : ℤ) : ℚ) / 2 ^ (t + 1) := by
      push_cast; field_simp
    rw [max_eq_right (by linarith)]
    rw [e3, rnd_dy (by omega)]
    rw [div_lt_one (by positivity)] at hlt
    have : |z| < 2 ^ (t + 1) := by exact_mod_cast hlt
    have h24 : (2 : ℤ) ^ (t + 1) ≤ 2 ^ 24 := pow_le_pow_right₀ (by norm_num) ht
    have := abs_nonneg z
    rw [abs_of_nonneg (by omega)]; omega
  · rw [max_eq_left (by linarith)]

/-- Window and weights of output coordinate `2^t k + j`, `k ≥ 1`: always the pixels `k - 1` and `k`. -/
theorem up_window {k j : ℕ} (hk : k < inn) (hj : j < 2 ^ t) :
    wStart rnd (filterOf rnd L .bilinear) inn (inn * 2 ^ t) (2 ^ t * k + j) = k - 1 ∧
    wEnd rnd (filterOf rnd L .bilinear) inn (inn * 2 ^ t) (2 ^ t * k + j) = min (k - 1 + 2) inn := by
  obtain ⟨hi, hc⟩ := up_centre h1 hs hk hj
  have hkz := up_kernel L h1 hs
  obtain ⟨S, E⟩ := window_eq (f := filterOf rnd L .bilinear) (dyadic_up h1 hs) hi (by rw [hkz]; norm_num)
  rw [hkz, hc] at S E
  have p0 : (0 : ℚ) < (2 * j + 1 : ℚ) / (2 * 2 ^ t) := by positivity
  have p1 : (2 * j + 1 : ℚ) / (2 * 2 ^ t) < 1 := by
    rw [div_lt_one (by positivity)]
    have : (j : ℚ) + 1 ≤ 2 ^ t := by exact_mod_cast hj
    linarith
  have f1 : ⌊(k : ℚ) + (2 * j + 1 : ℚ) / (2 * 2 ^ t) - ((2 : ℕ) : ℚ) / 2⌋ = (k : ℤ) - 1 := by
    rw [Int.floor_eq_iff]; push_cast; constructor <;> linarith
  have f2 : ⌈(k : ℚ) + (2 * j + 1 : ℚ) / (2 * 2 ^ t) + ((2 : ℕ) : ℚ) / 2⌉ = (k : ℤ) + 2 := by
    rw [Int.ceil_eq_iff]; push_cast; constructor <;> linarith
  rw [f1] at S
  rw [f2] at E
  constructor <;> omega

/-- Quantised rows: right halves of pixels, `k ≥ 1`. -/
theorem up_row_right {k j : ℕ} (hk : k < inn) (hj : j < 2 ^ t) (hk0 : 1 ≤ k) (hr : 2 ^ t < 2 * j + 1) :
    (genRow rnd (filterOf rnd L .bilinear) inn (inn * 2 ^ t) (2 ^ t * k + j)).map (quantise rnd) = [0, 32767] := by
  obtain ⟨S, E⟩ := up_window L h1 hs hk hj
  have hT : (0 : ℚ) < 2 ^ t := by positivity
  have hr' : (2 : ℚ) ^ t + 1 ≤ 2 * j + 1 := by exact_mod_cast hr
  have hj' : (j : ℚ) + 1 ≤ 2 ^ t := by exact_mod_cast hj
  have p0 : 1 / 2 < (2 * j + 1 : ℚ) / (2 * 2 ^ t) := by rw [lt_div_iff₀ (by positivity)]; linarith
  have p1 : (2 * j + 1 : ℚ) / (2 * 2 ^ t) < 1 := by rw [div_lt_one (by positivity)]; linarith
  have kc : ((k - 1 : ℕ) : ℚ) = k - 1 := by rw [Nat.cast_sub hk0]; simp
  have hrow := rawRow_two S (by rw [E]; omega)
  rw [Nat.sub_add_cancel hk0, up_raw L h1 hs hk hj (by omega), up_raw L h1 hs hk hj hk, kc] at hrow
  rw [max_eq_left (by rw [abs_of_nonpos (by linarith)]; linarith), max_eq_right (by rw [abs_of_nonpos (by linarith)]; linarith),
    abs_of_nonpos (by linarith)] at hrow
  rw [genRow_of rfl hrow]
  refine normRow_single (pre := 1) (post := 0) ?_ (by linarith) (by linarith)
  have ht := (dyadic_up h1 hs).t_le
  refine ⟨3 * 2 ^ t - (2 * j + 1), -((t + 1 : ℕ) : ℤ), ?_, ?_, by omega⟩
  · rw [zpow_neg, zpow_natCast, pow_succ]; push_cast; field_simp; ring
  · have h24 : (2 : ℤ) ^ (t + 1) ≤ 2 ^ 24 := pow_le_pow_right₀ (by norm_num) ht
    rw [pow_succ] at h24
    have a1 : (2 : ℤ) ^ t + 1 ≤ 2 * j + 1 := by exact_mod_cast hr
    have a2 : (j : ℤ) + 1 ≤ 2 ^ t := by exact_mod_cast hj
    rw [abs_of_nonneg (by omega)]; omega

theorem rep_dy (ht : t + 1 ≤ 24) {z : ℤ} (hz : |z| ≤ 2 * 2 ^ t) : Rep ((z : ℚ) / (2 * 2 ^ t)) := by
  refine ⟨z, -((t + 1 : ℕ) : ℤ), ?_, ?_, by omega⟩
  · rw [zpow_neg, zpow_natCast, pow_succ, mul_comm (2 ^ t : ℚ) 2]; rfl
  · have h24 : (2 : ℤ) ^ (t + 1) ≤ 2 ^ 24 := pow_le_pow_right₀ (by norm_num) ht
    rw [pow_succ] at h24
    omega

/-- Rows of left halves, `k ≥ 1`: exact linear interpolation. -/
theorem up_row_left {k j : ℕ} (hk : k < inn) (hj : j < 2 ^ t) (hk0 : 1 ≤ k) (hr : 2 * j + 1 < 2 ^ t) :
    genRow rnd (filterOf rnd L .bilinear) inn (inn * 2 ^ t) (2 ^ t * k + j) =
      [((2 ^ t - (2 * j + 1) : ℤ) : ℚ) / (2 * 2 ^ t), ((2 ^ t + (2 * j + 1) : ℤ) : ℚ) / (2 * 2 ^ t)] := by
  obtain ⟨S, E⟩ := up_window L h1 hs hk hj
  have hT : (0 : ℚ) < 2 ^ t := by positivity
  have hr' : (2 : ℚ) * j + 1 + 1 ≤ 2 ^ t := by exact_mod_cast hr
  have p0 : (0 : ℚ) < (2 * j + 1 : ℚ) / (2 * 2 ^ t) := by positivity
  have p1 : (2 * j + 1 : ℚ) / (2 * 2 ^ t) < 1 / 2 := by rw [div_lt_iff₀ (by positivity)]; linarith
  have kc : ((k - 1 : ℕ) : ℚ) = k - 1 := by rw [Nat.cast_sub hk0]; simp
  have hrow := rawRow_two S (by rw [E]; omega)
  rw [Nat.sub_add_cancel hk0, up_raw L h1 hs hk hj (by omega), up_raw L h1 hs hk hj hk, kc] at hrow
  rw [abs_of_nonpos (show (k : ℚ) - 1 + 1 / 2 - (k + (2 * j + 1 : ℚ) / (2 * 2 ^ t)) ≤ 0 by linarith),
    abs_of_nonneg (show 0 ≤ (k : ℚ) + 1 / 2 - (k + (2 * j + 1 : ℚ) / (2 * 2 ^ t)) by linarith),
    max_eq_right (by linarith), max_eq_right (by linarith)] at hrow
  have e1 : 1 - -((k : ℚ) - 1 + 1 / 2 - (k + (2 * j + 1 : ℚ) / (2 * 2 ^ t))) =
      ((2 ^ t - (2 * j + 1) : ℤ) : ℚ) / (2 * 2 ^ t) := by push_cast; field_simp; ring
  have e2 : 1 - ((k : ℚ) + 1 / 2 - (k + (2 * j + 1 : ℚ) / (2 * 2 ^ t))) =
      ((2 ^ t + (2 * j + 1) : ℤ) : ℚ) / (2 * 2 ^ t) := by push_cast; field_simp; ring
  rw [e1, e2] at hrow
  have ht := (dyadic_up h1 hs).t_le
  have a1 : 2 * (j : ℤ) + 1 + 1 ≤ 2 ^ t := by exact_mod_cast hr
  rw [genRow_of rfl hrow]
  refine normRow_unit (rep_dy h1 hs ht (by rw [abs_of_nonneg (by omega)]; omega))
    (rep_dy h1 hs ht (by rw [abs_of_nonneg (by omega)]; omega)) ?_
  push_cast; field_simp; ring

/-- Row of the right half of the first pixel. -/
theorem up_row_first_right {j : ℕ} (h2 : 2 ≤ inn) (hj : j < 2 ^ t) (hr : 2 ^ t < 2 * j + 1) :
    genRow rnd (filterOf rnd L .bilinear) inn (inn * 2 ^ t) (2 ^ t * 0 + j) =
      [((3 * 2 ^ t - (2 * j + 1) : ℤ) : ℚ) / (2 * 2 ^ t), ((2 * j + 1 - 2 ^ t : ℤ) : ℚ) / (2 * 2 ^ t)] := by
  obtain ⟨S, E⟩ := up_window L h1 hs (k := 0) (by omega) hj
  have hT : (0 : ℚ) < 2 ^ t := by positivity
  have hr' : (2 : ℚ) ^ t + 1 ≤ 2 * j + 1 := by exact_mod_cast hr
  have hj' : (j : ℚ) + 1 ≤ 2 ^ t := by exact_mod_cast hj
  have p0 : 1 / 2 < (2 * j + 1 : ℚ) / (2 * 2 ^ t) := by rw [lt_div_iff₀ (by positivity)]; linarith
  have p1 : (2 * j + 1 : ℚ) / (2 * 2 ^ t) < 1 := by rw [div_lt_one (by positivity)]; linarith
  have hrow := rawRow_two (s := 0) S (by rw [E]; omega)
  rw [up_raw L h1 hs (by omega) hj (by omega), up_raw L h1 hs (by omega) hj (by omega)] at hrow
  push_cast at hrow
  rw [abs_of_nonpos (show (0 : ℚ) + 1 / 2 - (0 + (2 * j + 1 : ℚ) / (2 * 2 ^ t)) ≤ 0 by linarith),
    abs_of_nonneg (show 0 ≤ (1 : ℚ) + 1 / 2 - (0 + (2 * j + 1 : ℚ) / (2 * 2 ^ t)) by linarith),
    max_eq_right (by linarith), max_eq_right (by linarith)] at hrow
  have e1 : 1 - -((0 : ℚ) + 1 / 2 - (0 + (2 * j + 1 : ℚ) / (2 * 2 ^ t))) =
      ((3 * 2 ^ t - (2 * j + 1) : ℤ) : ℚ) / (2 * 2 ^ t) := by push_cast; field_simp; ring
  have e2 : 1 - ((1 : ℚ) + 1 / 2 - (0 + (2 * j + 1 : ℚ) / (2 * 2 ^ t))) =
      ((2 * j + 1 - 2 ^ t : ℤ) : ℚ) / (2 * 2 ^ t) := by push_cast; field_simp; ring
  rw [e1, e2] at hrow
  have ht := (dyadic_up h1 hs).t_le
  have a1 : (2 : ℤ) ^ t + 1 ≤ 2 * j + 1 := by exact_mod_cast hr
  have a2 : (j : ℤ) + 1 ≤ 2 ^ t := by exact_mod_cast hj
  rw [genRow_of rfl hrow]
  refine normRow_unit (rep_dy h1 hs ht (by rw [abs_of_nonneg (by omega)]; omega))
    (rep_dy h1 hs ht (by rw [abs_of_nonneg (by omega)]; omega)) ?_
  push_cast; field_simp; ring

/-- Row of the left half of the first pixel, and of a source of one pixel: that pixel alone. -/
theorem up_row_first_left {j : ℕ} (hj : j < 2 ^ t) (hr : 2 * j + 1 ≠ 2 ^ t) (h2 : 2 * j + 1 < 2 ^ t ∨ inn = 1) :
    ∃ n, (genRow rnd (filterOf rnd L .bilinear) inn (inn * 2 ^ t) (2 ^ t * 0 + j)).map (quantise rnd) =
      32767 :: List.replicate n 0 := by
  obtain ⟨S, E⟩ := up_window L h1 hs (k := 0) (by omega) hj
  have hT : (0 : ℚ) < 2 ^ t := by positivity
  have hj' : (j : ℚ) + 1 ≤ 2 ^ t := by exact_mod_cast hj
  have p0 : (0 : ℚ) < (2 * j + 1 : ℚ) / (2 * 2 ^ t) := by positivity
  have p1 : (2 * j + 1 : ℚ) / (2 * 2 ^ t) < 1 := by rw [div_lt_one (by positivity)]; linarith
  have ht := (dyadic_up h1 hs).t_le
  have h24 : (2 : ℤ) ^ (t + 1) ≤ 2 ^ 24 := pow_le_pow_right₀ (by norm_num) ht
  rw [pow_succ] at h24
  have a2 : (j : ℤ) + 1 ≤ 2 ^ t := by exact_mod_cast hj
  have hraw0 := up_raw L h1 hs (k := 0) (k' := 0) (by omega) hj (by omega)
  have hval : ∃ v : ℚ, Rep v ∧ 1 / 2 ≤ v ∧ v ≤ 1 ∧
      rawWeight rnd (filterOf rnd L .bilinear) inn (inn * 2 ^ t) (2 ^ t * 0 + j) 0 = v := by
    push_cast at hraw0
    rcases le_total ((2 * j + 1 : ℚ) / (2 * 2 ^ t)) (1 / 2) with hle | hle
    · rw [abs_of_nonneg (by linarith), max_eq_right (by linarith)] at hraw0
      refine ⟨_, ?_, ?_, ?_, hraw0⟩
      · have hle' : (2 * j + 1 : ℚ) ≤ 2 ^ t := by
          rw [div_le_iff₀ (by positivity)] at hle; linarith
        have hle'' : 2 * (j : ℤ) + 1 ≤ 2 ^ t := by exact_mod_cast hle'
        have := rep_dy h1 hs ht (z := 2 ^ t + (2 * j + 1)) (by rw [abs_of_nonneg (by positivity)]; omega)
        have e : ((2 ^ t + (2 * j + 1) : ℤ) : ℚ) / (2 * 2 ^ t) = 1 - (0 + 1 / 2 - (0 + (2 * j + 1 : ℚ) / (2 * 2 ^ t))) := by
          push_cast; field_simp; ring
        rw [e] at this; exact this
      · linarith
      · linarith
    · rw [abs_of_nonpos (by linarith), max_eq_right (by linarith)] at hraw0
      refine ⟨_, ?_, ?_, ?_, hraw0⟩
      · have hle' : (2 : ℚ) ^ t ≤ 2 * j + 1 := by
          rw [le_div_iff₀ (by positivity)] at hle; linarith
        have hle'' : (2 : ℤ) ^ t ≤ 2 * j + 1 := by exact_mod_cast hle'
        have := rep_dy h1 hs ht (z := 3 * 2 ^ t - (2 * j + 1)) (by rw [abs_of_nonneg (by omega)]; omega)
        have e : ((3 * 2 ^ t - (2 * j + 1) : ℤ) : ℚ) / (2 * 2 ^ t) = 1 - -(0 + 1 / 2 - (0 + (2 * j + 1 : ℚ) / (2 * 2 ^ t))) := by
          push_cast; field_simp; ring
        rw [e] at this; exact this
      · linarith
      · linarith
  obtain ⟨v, v1, v2, v3, hv⟩ := hval
  rcases Nat.lt_or_ge 1 inn with hi1 | hi1
  · have hlt : 2 * j + 1 < 2 ^ t := by omega
    have hr' : (2 : ℚ) * j + 1 + 1 ≤ 2 ^ t := by exact_mod_cast hlt
    have p2 : (2 * j + 1 : ℚ) / (2 * 2 ^ t) < 1 / 2 := by rw [div_lt_iff₀ (by positivity)]; linarith
    have hrow := rawRow_two (s := 0) S (by rw [E]; omega)
    rw [hv, up_raw L h1 hs (by omega) hj (by omega)] at hrow
    push_cast at hrow
    rw [abs_of_nonneg (show 0 ≤ (1 : ℚ) + 1 / 2 - (0 + (2 * j + 1 : ℚ) / (2 * 2 ^ t)) by linarith),
      max_eq_left (by linarith)] at hrow
    rw [genRow_of rfl hrow]
    exact ⟨1, normRow_single (pre := 0) (post := 1) v1 v2 v3⟩
  · have hrow := rawRow_one (s := 0) S (by rw [E]; omega)
    rw [hv] at hrow
    rw [genRow_of rfl hrow]
    exact ⟨0, normRow_single (pre := 0) (post := 0) v1 v2 v3⟩

end bilinear

end PicScale
