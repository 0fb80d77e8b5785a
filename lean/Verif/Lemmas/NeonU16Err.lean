import Verif.Lemmas.NeonU16Pass
import Verif.Lemmas.FloatErr
import Verif.Lemmas.NeonAlphaU16
import Verif.Lemmas.X86F32Value
import Verif.Props.Accuracy

/-! Accuracy of the NEON column handlers of u16 images that work in floating point. -/

namespace PicScale

open Spec Finset

/-- Rounding and clamping adds at most a half. -/
theorem nearestClamp_near (d : ℕ) (x s : ℚ) :
    |(nearestClamp d x : ℚ) - clampQ (2 ^ d - 1) s| ≤ 1 / 2 + |x - s| := by
  have h1 := Int.floor_le (x + 1 / 2)
  have h2 := Int.lt_floor_add_one (x + 1 / 2)
  have e : (nearestClamp d x : ℚ) = clampQ (2 ^ d - 1) (⌊x + 1 / 2⌋ : ℚ) := by
    unfold nearestClamp clamp clampQ
    have h0 : (0 : ℤ) ≤ max 0 (min ⌊x + 1 / 2⌋ ((2 ^ d - 1 : ℕ) : ℤ)) := le_max_left _ _
    have : (((max 0 (min ⌊x + 1 / 2⌋ ((2 ^ d - 1 : ℕ) : ℤ))).toNat : ℤ) : ℚ) =
        ((max 0 (min ⌊x + 1 / 2⌋ ((2 ^ d - 1 : ℕ) : ℤ)) : ℤ) : ℚ) := by rw [Int.toNat_of_nonneg h0]
    rw [Int.cast_natCast] at this
    rw [this]
    push_cast
    rfl
  rw [e]
  have hl : |(⌊x + 1 / 2⌋ : ℚ) - s| ≤ 1 / 2 + |x - s| := by
    have := abs_add_le ((⌊x + 1 / 2⌋ : ℚ) - x) (x - s)
    rw [show (⌊x + 1 / 2⌋ : ℚ) - x + (x - s) = (⌊x + 1 / 2⌋ : ℚ) - s by ring] at this
    have h3 : |(⌊x + 1 / 2⌋ : ℚ) - x| ≤ 1 / 2 := by rw [abs_le]; constructor <;> linarith
    linarith
  exact clampQ_err _ hl

/-- A column above 12 bits. -/
theorem tapF_near (w : List ℚ) (s : ℕ → ℕ) (n : ℕ) :
    |tapsL tapF 0 w s (List.range n) - dotSum n (fun k => (s k : ℚ)) (fun k => w.getD k 0)| ≤
      Spec.floatErr n (termSize n (fun k => (s k : ℚ)) (fun k => w.getD k 0)) := by
  have h := chain_near (ρ := F32.rnd) rnd_near true (fun k => (s k : ℚ)) (fun k => w.getD k 0) n
  have e : tapsL tapF 0 w s (List.range n) = chain (mlaOf F32.rnd true) 0 (fun k => (s k : ℚ)) (fun k => w.getD k 0) n := by
    clear h
    induction n with
    | zero => rfl
    | succ n ih =>
      rw [List.range_succ, tapsL_snoc, ih]
      simp [tapF, mlaf, chain, mlaOf, add_comm]
  rw [e]
  refine le_trans h.err (le_of_eq ?_)
  unfold Spec.floatErr uR etaR termSize
  push_cast
  ring

theorem termSize_succ (n : ℕ) (p w : ℕ → ℚ) : termSize (n + 1) p w = termSize n p w + |p n| * |w n| := sum_range_succ _ _
theorem dotSum_succ (n : ℕ) (p w : ℕ → ℚ) : dotSum (n + 1) p w = dotSum n p w + p n * w n := sum_range_succ _ _
theorem underSize_succ (n : ℕ) (p w : ℕ → ℚ) : underSize (n + 1) p w = underSize n p w + (|p n| + |w n| + 2) := sum_range_succ _ _
theorem termSize_nonneg (n : ℕ) (p w : ℕ → ℚ) : 0 ≤ termSize n p w := sum_nonneg fun _ _ => by positivity
theorem underSize_nonneg (n : ℕ) (p w : ℕ → ℚ) : 0 ≤ underSize n p w := sum_nonneg fun _ _ => by positivity
theorem dotSum_abs (n : ℕ) (p w : ℕ → ℚ) : |dotSum n p w| ≤ termSize n p w := by
  unfold dotSum termSize
  refine le_trans (abs_sum_le_sum_abs _ _) (le_of_eq (sum_congr rfl fun k _ => abs_mul _ _))

/-- One product of rounded factors. -/
theorem half_product {u η p w p' w' : ℚ} (hu : 0 < u) (hη : 0 < η) (hη1 : η ≤ 1) (hp : |p' - p| ≤ u * |p| + η)
    (hw : |w' - w| ≤ u * |w| + η) :
    |p' * w' - p * w| ≤ ((1 + u) ^ 2 - 1) * (|p| * |w|) + (1 + u) ^ 2 * (|p| + |w| + 1) * η := by
  have e : p' * w' - p * w = p' * (w' - w) + (p' - p) * w := by ring
  have h1 : |p'| ≤ (1 + u) * |p| + η := by
    have := abs_add_le (p' - p) p
    rw [sub_add_cancel] at this
    linarith
  rw [e]
  refine le_trans (abs_add_le _ _) ?_
  rw [abs_mul, abs_mul]
  have h2 : |p'| * |w' - w| ≤ ((1 + u) * |p| + η) * (u * |w| + η) := mul_le_mul h1 hw (abs_nonneg _) (by positivity)
  have h3 : |p' - p| * |w| ≤ (u * |p| + η) * |w| := mul_le_mul_of_nonneg_right hp (abs_nonneg _)
  have hP := abs_nonneg p
  have hW := abs_nonneg w
  have k1 : ((1 + u) * |p| + η) * (u * |w| + η) + (u * |p| + η) * |w| =
      ((1 + u) ^ 2 - 1) * (|p| * |w|) + ((1 + u) * (|p| + |w|) + η) * η := by ring
  have k2 : (1 + u) * (|p| + |w|) + η ≤ (1 + u) ^ 2 * (|p| + |w| + 1) := by
    have a1 : (1 + u) * (|p| + |w|) ≤ (1 + u) ^ 2 * (|p| + |w|) := mul_le_mul_of_nonneg_right (by nlinarith) (by positivity)
    nlinarith
  have := mul_le_mul_of_nonneg_right k2 hη.le
  linarith

/-- A column in half precision. -/
theorem tapH_near (w w' : List ℚ) (s : ℕ → ℕ) (n : ℕ) (hs : ∀ k, k < n → s k < 65520)
    (hw : ∀ k, k < n → w'.getD k 0 = rnd16 (w.getD k 0))
    (hf : HalfFits n (fun k => (s k : ℚ)) (fun k => w.getD k 0)) :
    |tapsL tapH 0 w' s (List.range n) - dotSum n (fun k => (s k : ℚ)) (fun k => w.getD k 0)| ≤
      halfSumErr n (fun k => (s k : ℚ)) (fun k => w.getD k 0) := by
  have hu : (0 : ℚ) < 1 / 2 ^ 11 := by norm_num
  have hη : (0 : ℚ) < 1 / 2 ^ 25 := by norm_num
  generalize hP : (fun k => (s k : ℚ)) = P at hf ⊢
  generalize hW : (fun k => w.getD k 0) = V at hf ⊢
  unfold halfSumErr
  induction n with
  | zero => simp [tapsL, dotSum, termSize, underSize]
  | succ n ih =>
    obtain ⟨f1, f2⟩ := hf
    have hT := termSize_nonneg n P V
    have hU := underSize_nonneg n P V
    have hD := dotSum_abs n P V
    rw [termSize_succ, underSize_succ] at f2
    have hq : (1 : ℚ) ≤ (1 + 1 / 2 ^ 11) ^ (n + 2) := one_le_pow₀ (by norm_num)
    have hq' : (1 + 1 / 2 ^ 11 : ℚ) ^ (n + 1 + 2) = (1 + 1 / 2 ^ 11) ^ (n + 2) * (1 + 1 / 2 ^ 11) := pow_succ _ _
    have hq2 : (1 + 1 / 2 ^ 11 : ℚ) ^ 2 ≤ (1 + 1 / 2 ^ 11) ^ (n + 2) := pow_le_pow_right₀ (by norm_num) (by omega)
    have hPn : P n = (s n : ℚ) := by rw [← hP]
    have hVn : V n = w.getD n 0 := by rw [← hW]
    have hp0 := abs_nonneg (P n)
    have hv0 := abs_nonneg (V n)
    set q := (1 + 1 / 2 ^ 11 : ℚ) ^ (n + 2) with hqd
    have hpv : 0 ≤ |P n| * |V n| := by positivity
    have fits : HalfFits n P V := by
      refine ⟨fun k hk => f1 k (by omega), lt_of_le_of_lt ?_ f2⟩
      rw [← hqd, hq']
      apply mul_le_mul _ _ (by positivity) (by positivity)
      · linarith
      · have : underSize n P V / 2 ^ 25 ≤ (underSize n P V + (|P n| + |V n| + 2)) / 2 ^ 25 :=
          div_le_div_of_nonneg_right (by linarith) (by positivity)
        linarith
    have ih := ih (fun k hk => hs k (by omega)) (fun k hk => hw k (by omega)) fits
    rw [List.range_succ, tapsL_snoc, hw n (by omega), ← hVn, dotSum_succ, termSize_succ, underSize_succ]
    set a := tapsL tapH 0 w' s (List.range n)
    unfold tapH
    have hp : |rnd16 (s n : ℚ) - P n| ≤ 1 / 2 ^ 11 * |P n| + 1 / 2 ^ 25 := by
      rw [hPn]
      have := rnd16_err (q := (s n : ℚ)) (by
        rw [abs_of_nonneg (by positivity)]
        exact_mod_cast hs n (by omega))
      linarith
    have hv : |rnd16 (V n) - V n| ≤ 1 / 2 ^ 11 * |V n| + 1 / 2 ^ 25 := by
      have := rnd16_err (q := V n) (f1 n (by omega))
      linarith
    have hpr := half_product hu hη (by norm_num) hp hv
    have e1 : ((1 + 1 / 2 ^ 11 : ℚ) ^ 2 - 1) * (|P n| * |V n|) ≤ (q - 1) * (|P n| * |V n|) :=
      mul_le_mul_of_nonneg_right (by linarith) hpv
    have e2 : (1 + 1 / 2 ^ 11 : ℚ) ^ 2 * (|P n| + |V n| + 1) * (1 / 2 ^ 25) ≤ q * (|P n| + |V n| + 1) * (1 / 2 ^ 25) :=
      mul_le_mul_of_nonneg_right (mul_le_mul_of_nonneg_right hq2 (by positivity)) (by positivity)
    -- the sum before rounding
    have hsum : |a + rnd16 (s n : ℚ) * rnd16 (V n) - (dotSum n P V + P n * V n)| ≤
        (q - 1) * (termSize n P V + |P n| * |V n|) + q * (underSize n P V + (|P n| + |V n| + 1)) / 2 ^ 25 := by
      have := abs_add_le (a - dotSum n P V) (rnd16 (s n : ℚ) * rnd16 (V n) - P n * V n)
      rw [show a - dotSum n P V + (rnd16 (s n : ℚ) * rnd16 (V n) - P n * V n) =
        a + rnd16 (s n : ℚ) * rnd16 (V n) - (dotSum n P V + P n * V n) by ring] at this
      have k1 : q * (underSize n P V + (|P n| + |V n| + 1)) / 2 ^ 25 =
        q * underSize n P V / 2 ^ 25 + q * (|P n| + |V n| + 1) * (1 / 2 ^ 25) := by ring
      rw [k1]
      linarith
    set x := a + rnd16 (s n : ℚ) * rnd16 (V n) with hx
    set T := termSize n P V + |P n| * |V n| with hTd
    set S := dotSum n P V + P n * V n with hS
    have hST : |S| ≤ T := by
      refine le_trans (abs_add_le _ _) ?_
      rw [abs_mul]; linarith
    have hT' : 0 ≤ T := by positivity
    set U := underSize n P V + (|P n| + |V n| + 1) with hUd
    have hU' : 0 ≤ U := by positivity
    have hx1 : |x| ≤ q * T + q * U / 2 ^ 25 := by
      have := abs_add_le (x - S) S
      rw [sub_add_cancel] at this
      linarith
    have hUe : underSize n P V + (|P n| + |V n| + 2) = U + 1 := by rw [hUd]; ring
    rw [hUe] at f2 ⊢
    have hx2 : |x| < 65520 := by
      refine lt_of_le_of_lt hx1 (lt_of_le_of_lt ?_ f2)
      rw [hq']
      have k : q * T + q * U / 2 ^ 25 = q * (T + U / 2 ^ 25) := by ring
      rw [k]
      apply mul_le_mul _ _ (by positivity) (by positivity)
      · linarith
      · have : U / 2 ^ 25 ≤ (U + 1) / 2 ^ 25 := div_le_div_of_nonneg_right (by linarith) (by positivity)
        linarith
    have hr := rnd16_err hx2
    have h2 := abs_add_le (rnd16 x - x) (x - S)
    rw [sub_add_sub_cancel] at h2
    rw [hq']
    have t1 : (q * (1 + 1 / 2 ^ 11) - 1) * T + q * (1 + 1 / 2 ^ 11) * (U + 1) / 2 ^ 25 =
      ((q - 1) * T + q * U / 2 ^ 25) + (q * T + q * U / 2 ^ 25) / 2 ^ 11 + q * (1 + 1 / 2 ^ 11) / 2 ^ 25 := by ring
    have t2 : (1 : ℚ) / 2 ^ 25 ≤ q * (1 + 1 / 2 ^ 11) / 2 ^ 25 := div_le_div_of_nonneg_right (by linarith) (by positivity)
    have t3 : |x| / 2 ^ 11 ≤ (q * T + q * U / 2 ^ 25) / 2 ^ 11 := div_le_div_of_nonneg_right hx1 (by positivity)
    rw [t1]
    linarith

theorem halfWeights_weight (fw : FilterWeights ℚ) (y k : ℕ) : (halfWeights fw).weight y k = rnd16 (fw.weight y k) := by
  unfold halfWeights FilterWeights.weight
  simp only [List.getD_eq_getElem?_getD, List.getElem?_map]
  cases fw.weights[y * fw.alignedSize + k]? with
  | none => simp [rnd16_zero]
  | some v => rfl

theorem narrowH_eq {d : ℕ} (hd : d ≤ 16) (v : ℚ) : narrowH d v = nearestClamp d v := by
  unfold narrowH vcvta16 nearestClamp clamp
  have : 2 ^ d ≤ 2 ^ 16 := Nat.pow_le_pow_right (by omega) hd
  generalize ⌊v + 1 / 2⌋ = z
  generalize 2 ^ d = m at *
  omega

end PicScale
