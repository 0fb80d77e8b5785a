import Mathlib.Tactic.Linarith
import Mathlib.Tactic.Positivity
import Mathlib.Tactic.NormNum
import Mathlib.Tactic.Ring
import Mathlib.Tactic.FieldSimp
import Mathlib.Algebra.Order.Ring.Pow
import Verif.Lemmas.Quantise

/-!
Binary32 error analysis of the weight tables: the accumulated sum of non-negative weights, the
normalised weights and the quantised weights.
-/

namespace PicScale

namespace F32

/-- Every binary32 number is a multiple of the smallest subnormal. -/
theorem Rep.grid {a : ℚ} (h : Rep a) : ∃ m : ℤ, a = m * (2 : ℚ) ^ (-149 : ℤ) := by
  obtain ⟨m, e, rfl, _, he⟩ := h
  refine ⟨m * 2 ^ (e + 149).toNat, ?_⟩
  have h1 : (2 : ℚ) ^ e = 2 ^ (e + 149).toNat * (2 : ℚ) ^ (-149 : ℤ) := by
    rw [← zpow_natCast, ← zpow_add₀ (by norm_num)]
    congr 1
    omega
  rw [h1]; push_cast; ring

/-- The sum of two binary32 numbers is rounded with a purely relative error. -/
theorem rnd_add_rel {a b : ℚ} (ha : Rep a) (hb : Rep b) : |rnd (a + b) - (a + b)| ≤ |a + b| / 2 ^ 24 := by
  rcases le_total (1 / 2 ^ 126) |a + b| with h | h
  · exact rnd_err_rel h
  · have : Rep (a + b) := by
      obtain ⟨m, rfl⟩ := ha.grid
      obtain ⟨n, rfl⟩ := hb.grid
      refine ⟨m + n, -149, by push_cast; ring, ?_, le_refl _⟩
      have hp : (0 : ℚ) < (2 : ℚ) ^ (-149 : ℤ) := by positivity
      rw [← add_mul, abs_mul, abs_of_pos hp, ← Int.cast_add, ← Int.cast_abs] at h
      have h2 : ((|m + n| : ℤ) : ℚ) ≤ 2 ^ 24 := by
        by_contra hc
        rw [not_le] at hc
        have h3 := mul_lt_mul_of_pos_right hc hp
        have e : (2 : ℚ) ^ 24 * (2 : ℚ) ^ (-149 : ℤ) = 2 / 2 ^ 126 := by norm_num
        rw [e] at h3
        have : (0 : ℚ) < 1 / 2 ^ 126 := by positivity
        have e2 : (2 : ℚ) / 2 ^ 126 = 1 / 2 ^ 126 + 1 / 2 ^ 126 := by ring
        linarith
      exact_mod_cast h2
    rw [this.rnd, sub_self, abs_zero]
    positivity

/-- Rounding at most doubles a non-negative number, subnormals included. -/
theorem rnd_le_two {q : ℚ} (h : 0 ≤ q) : rnd q ≤ 2 * q := by
  rcases eq_or_lt_of_le h with rfl | h0
  · simp
  rw [rnd_def]
  have hp : (0 : ℚ) < 2 ^ qexp q := by positivity
  set x := q / 2 ^ qexp q with hx
  have hq : q = x * 2 ^ qexp q := by rw [hx]; field_simp
  have hx0 : 0 < x := by rw [hx]; positivity
  have key : (rhe x : ℚ) ≤ 2 * x := by
    rcases le_or_gt x (1 / 2) with hh | hh
    · have a := rhe_mono hh
      have e : rhe (1 / 2) = 0 := by decide +kernel
      rw [e] at a
      have : (rhe x : ℚ) ≤ 0 := by exact_mod_cast a
      linarith
    · have a := rhe_spec x
      rw [abs_le] at a
      linarith [a.2]
  calc (rhe x : ℚ) * 2 ^ qexp q ≤ 2 * x * 2 ^ qexp q := mul_le_mul_of_nonneg_right key hp.le
    _ = 2 * q := by rw [mul_assoc, ← hq]

end F32

open F32

/-- Unit roundoff of binary32. -/
def u24 : ℚ := 1 / 2 ^ 24

theorem u24_pos : 0 < u24 := by unfold u24; positivity

/-- The running sum of non-negative binary32 numbers. -/
theorem foldl_sum_bounds (ws : List ℚ) (hw : ∀ w ∈ ws, 0 ≤ w ∧ Rep w) : ∀ s, 0 ≤ s → Rep s →
    (1 - u24) ^ ws.length * (s + ws.sum) ≤ ws.foldl (fun s w => F32.rnd (s + w)) s ∧
      ws.foldl (fun s w => F32.rnd (s + w)) s ≤ (1 + u24) ^ ws.length * (s + ws.sum) ∧
      Rep (ws.foldl (fun s w => F32.rnd (s + w)) s) := by
  have u0 := u24_pos
  have u1 : u24 < 1 := by unfold u24; norm_num
  induction ws with
  | nil => intro s h0 hr; simpa using hr
  | cons a t ih =>
    intro s hs hr
    obtain ⟨a0, ar⟩ := hw a List.mem_cons_self
    have ht : ∀ w ∈ t, 0 ≤ w ∧ Rep w := fun w h => hw w (List.mem_cons_of_mem _ h)
    have hsa : 0 ≤ s + a := add_nonneg hs a0
    have e := rnd_add_rel hr ar
    rw [abs_of_nonneg hsa, abs_le] at e
    have e1 : (1 - u24) * (s + a) ≤ F32.rnd (s + a) := by
      have : (s + a) / 2 ^ 24 = u24 * (s + a) := by unfold u24; ring
      rw [this] at e; linarith [e.1]
    have e2 : F32.rnd (s + a) ≤ (1 + u24) * (s + a) := by
      have : (s + a) / 2 ^ 24 = u24 * (s + a) := by unfold u24; ring
      rw [this] at e; linarith [e.2]
    obtain ⟨i1, i2, i3⟩ := ih ht (F32.rnd (s + a)) (RoundOK.rnd.nonneg hsa) (rep_rnd _)
    have hT : 0 ≤ t.sum := List.sum_nonneg fun w h => (ht w h).1
    simp only [List.foldl_cons, List.length_cons, List.sum_cons]
    refine ⟨le_trans ?_ i1, le_trans i2 ?_, i3⟩
    · rw [pow_succ, mul_assoc]
      refine mul_le_mul_of_nonneg_left ?_ (pow_nonneg (by linarith) _)
      nlinarith
    · rw [pow_succ, mul_assoc]
      refine mul_le_mul_of_nonneg_left ?_ (pow_nonneg (by linarith) _)
      nlinarith

theorem one_sub_pow_ge (n : ℕ) : 1 - n * u24 ≤ (1 - u24) ^ n := by
  have := one_add_mul_le_pow (a := -u24) (by unfold u24; norm_num) n
  have e : (1 : ℚ) + -u24 = 1 - u24 := by ring
  rw [e] at this
  linarith

theorem one_add_pow_le {n : ℕ} (hn : n ≤ 2 ^ 23) : (1 + u24) ^ n * (1 - n * u24) ≤ 1 := by
  have h1 := one_sub_pow_ge n
  have hp : (0 : ℚ) ≤ (1 + u24) ^ n := pow_nonneg (by unfold u24; norm_num) _
  calc (1 + u24) ^ n * (1 - n * u24) ≤ (1 + u24) ^ n * (1 - u24) ^ n := mul_le_mul_of_nonneg_left h1 hp
    _ = (1 - u24 * u24) ^ n := by rw [← mul_pow]; ring
    _ ≤ 1 := pow_le_one₀ (by unfold u24; norm_num) (by unfold u24; norm_num)

theorem nu_le {n : ℕ} (hn : n ≤ 2 ^ 23) : (n : ℚ) * u24 ≤ 1 / 2 := by
  have : (n : ℚ) ≤ 2 ^ 23 := by exact_mod_cast hn
  unfold u24
  have e : (n : ℚ) * (1 / 2 ^ 24) ≤ 2 ^ 23 * (1 / 2 ^ 24) := mul_le_mul_of_nonneg_right this (by positivity)
  refine le_trans e (by norm_num)

/-- The sum computed by the code is between `1 - t` and `1 / (1 - t)` times the true sum, `t = n 2^-24`. -/
def SumNear (p : List ℚ × ℚ) : Prop :=
  (1 - p.1.length * u24) * p.1.sum ≤ p.2 ∧ p.2 * (1 - p.1.length * u24) ≤ p.1.sum

theorem sumNear_of {n : ℕ} (hn : n ≤ 2 ^ 23) {T S : ℚ} (hT : 0 ≤ T) (h1 : (1 - u24) ^ n * T ≤ S)
    (h2 : S ≤ (1 + u24) ^ n * T) : (1 - n * u24) * T ≤ S ∧ S * (1 - n * u24) ≤ T := by
  have h3 := one_sub_pow_ge n
  have h4 := one_add_pow_le hn
  have h5 := nu_le hn
  constructor
  · exact le_trans (mul_le_mul_of_nonneg_right h3 hT) h1
  · have : S * (1 - n * u24) ≤ (1 + u24) ^ n * T * (1 - n * u24) :=
      mul_le_mul_of_nonneg_right h2 (by linarith)
    refine le_trans this ?_
    calc (1 + u24) ^ n * T * (1 - n * u24) = T * ((1 + u24) ^ n * (1 - n * u24)) := by ring
      _ ≤ T * 1 := mul_le_mul_of_nonneg_left h4 hT
      _ = T := mul_one _

/-- The EWA loop: outputs are binary32 numbers and its sum is the running sum of its outputs. -/
theorem ewaLoop_fold (prev sum : ℚ) (ws : List ℚ) :
    (∀ w ∈ (ewaLoop F32.rnd prev sum ws).1, Rep w) ∧
      (ewaLoop F32.rnd prev sum ws).2 = (ewaLoop F32.rnd prev sum ws).1.foldl (fun s w => F32.rnd (s + w)) sum := by
  induction ws generalizing prev sum with
  | nil => simp [ewaLoop]
  | cons w ws ih =>
    simp only [ewaLoop]
    obtain ⟨i1, i2⟩ := ih (F32.rnd (F32.rnd (F32.rnd (7 / 10) * w) + F32.rnd (F32.rnd (1 - F32.rnd (7 / 10)) * prev)))
      (F32.rnd (sum + F32.rnd (F32.rnd (F32.rnd (7 / 10) * w) + F32.rnd (F32.rnd (1 - F32.rnd (7 / 10)) * prev))))
    refine ⟨?_, ?_⟩
    · intro x hx
      rcases List.mem_cons.1 hx with rfl | hx
      · exact rep_rnd _
      · exact i1 x hx
    · rw [List.foldl_cons]; exact i2

/-- Raw weights before normalisation. -/
theorem preRow_near (f : Filter) (ws : List ℚ) (hw : ∀ w ∈ ws, 0 ≤ w ∧ Rep w) (hn : ws.length ≤ 2 ^ 23) :
    SumNear (preRow F32.rnd f ws) ∧ ∀ w ∈ (preRow F32.rnd f ws).1, 0 ≤ w ∧ Rep w := by
  have hnn := (preRow_nonneg RoundOK.rnd f ws fun w h => (hw w h).1).1
  have hl := preRow_length (ρ := F32.rnd) f ws
  have rep0 : Rep 0 := ⟨0, 0, by simp, by norm_num, by omega⟩
  unfold SumNear
  rw [hl]
  revert hnn
  unfold preRow
  split
  · rename_i w0 rest hE
    intro hnn
    obtain ⟨e1, e2⟩ := ewaLoop_fold w0 w0 rest
    obtain ⟨a0, ar⟩ := hw w0 List.mem_cons_self
    simp only at hnn ⊢
    have hr : ∀ w ∈ (ewaLoop F32.rnd w0 w0 rest).1, 0 ≤ w ∧ Rep w :=
      fun w h => ⟨hnn w (List.mem_cons_of_mem _ h), e1 w h⟩
    refine ⟨?_, ?_⟩
    · rw [e2, List.sum_cons]
      obtain ⟨b1, b2, _⟩ := foldl_sum_bounds _ hr w0 a0 ar
      have hlen : (ewaLoop F32.rnd w0 w0 rest).1.length = rest.length := ewaLoop_length _ _ _
      rw [hlen] at b1 b2
      have hT : 0 ≤ w0 + (ewaLoop F32.rnd w0 w0 rest).1.sum :=
        add_nonneg a0 (List.sum_nonneg fun w h => (hr w h).1)
      have u0 := u24_pos
      have c1 : (1 - u24) ^ (rest.length + 1) ≤ (1 - u24) ^ rest.length :=
        pow_le_pow_of_le_one (by unfold u24; norm_num) (by linarith) (by omega)
      have c2 : (1 + u24) ^ rest.length ≤ (1 + u24) ^ (rest.length + 1) :=
        pow_le_pow_right₀ (by linarith) (by omega)
      have := sumNear_of (n := rest.length + 1) (by simpa using hn) hT
        (le_trans (mul_le_mul_of_nonneg_right c1 hT) b1) (le_trans b2 (mul_le_mul_of_nonneg_right c2 hT))
      simpa using this
    · intro w h
      rcases List.mem_cons.1 h with rfl | h
      · exact ⟨a0, ar⟩
      · exact hr w h
  · intro hnn
    refine ⟨?_, hw⟩
    obtain ⟨b1, b2, _⟩ := foldl_sum_bounds _ hw 0 (le_refl _) rep0
    rw [zero_add] at b1 b2
    exact sumNear_of hn (List.sum_nonneg fun w h => (hw w h).1) b1 b2

/-- Quantisation of a non-negative product: at most twice the exact value (it is zero below 1/2). -/
theorem quantise_le_two {x : ℚ} (hx : 0 ≤ x) :
    (quantise F32.rnd (F32.rnd x) : ℚ) ≤ 2 * 32768 * (1 + u24) * x := by
  have u0 := u24_pos
  have hq : (quantise F32.rnd (F32.rnd x) : ℚ) ≤ max (F32.round (F32.rnd x * 32768) : ℚ) 0 := by
    unfold quantise
    rw [(rep_rnd x).scale.rnd]
    have : max (min (F32.round (F32.rnd x * 32768)) 32767) (-32768) ≤ max (F32.round (F32.rnd x * 32768)) 0 := by
      have : 0 ≤ F32.round (F32.rnd x * 32768) := by
        have h0 := RoundOK.rnd.nonneg hx
        unfold F32.round
        rw [if_pos (by linarith)]
        exact Int.floor_nonneg.2 (by linarith)
      omega
    exact_mod_cast this
  refine le_trans hq (max_le ?_ (by positivity))
  have h0 := RoundOK.rnd.nonneg hx
  rcases lt_or_ge (F32.rnd x * 32768) (1 / 2) with h | h
  · have : F32.round (F32.rnd x * 32768) ≤ 0 := by
      unfold F32.round
      rw [if_pos (by linarith)]
      have : ⌊F32.rnd x * 32768 + 1 / 2⌋ < 1 := by rw [Int.floor_lt]; push_cast; linarith
      omega
    have : (F32.round (F32.rnd x * 32768) : ℚ) ≤ 0 := by exact_mod_cast this
    refine le_trans this (by positivity)
  · have h1 := F32.round_err (F32.rnd x * 32768)
    rw [abs_le] at h1
    have h2 : 1 / 2 ^ 126 ≤ |x| := by
      rw [abs_of_nonneg hx]
      have := rnd_le_two hx
      have h3 : (1 / 2 ^ 17 : ℚ) ≤ x := by linarith
      refine le_trans ?_ h3
      norm_num
    have h3 := rnd_err_rel h2
    rw [abs_of_nonneg hx, abs_le] at h3
    have h4 : F32.rnd x ≤ (1 + u24) * x := by
      have : x / 2 ^ 24 = u24 * x := by unfold u24; ring
      rw [this] at h3; linarith [h3.2]
    linarith [h1.2]

/-- **The absolute quantised weights of a window add up to at most `2^18`**, for every window of at
most `2^23` non-negative binary32 raw weights. -/
theorem normRow_quantised_sum (p : List ℚ × ℚ) (hw : ∀ w ∈ p.1, 0 ≤ w) (h0 : 0 ≤ p.2)
    (hn : p.1.length ≤ 2 ^ 23) (hS : SumNear p) :
    ((normRow F32.rnd p).map (quantise F32.rnd)).sum ≤ 2 ^ 18 := by
  have hnu := nu_le hn
  have hsum0 : 0 ≤ p.1.sum := List.sum_nonneg hw
  have h2 : p.1.sum ≤ 2 * p.2 := by
    have := hS.1
    nlinarith
  unfold normRow
  split_ifs with hne
  · have hpos : 0 < p.2 := lt_of_le_of_ne h0 (Ne.symm hne)
    have hr0 : 0 ≤ F32.rnd (1 / p.2) := RoundOK.rnd.nonneg (by positivity)
    have hr : F32.rnd (1 / p.2) ≤ 2 * (1 / p.2) := rnd_le_two (by positivity)
    have key : ∀ l : List ℚ, (∀ w ∈ l, 0 ≤ w) →
        ((((l.map fun v => F32.rnd (v * F32.rnd (1 / p.2))).map (quantise F32.rnd)).sum : ℤ) : ℚ) ≤
          2 * 32768 * (1 + u24) * (l.sum * F32.rnd (1 / p.2)) := by
      intro l hl
      induction l with
      | nil => simp
      | cons a t ih =>
        have := quantise_le_two (mul_nonneg (hl a List.mem_cons_self) hr0)
        have := ih fun w h => hl w (List.mem_cons_of_mem _ h)
        simp only [List.map_cons, List.sum_cons, Int.cast_add]
        linarith
    have k := key p.1 hw
    have h3 : p.1.sum * F32.rnd (1 / p.2) ≤ 4 := by
      calc p.1.sum * F32.rnd (1 / p.2) ≤ (2 * p.2) * (2 * (1 / p.2)) :=
            mul_le_mul h2 hr hr0 (by linarith)
        _ = 4 := by field_simp; norm_num
    have h4 : (2 * 32768 * (1 + u24) * (p.1.sum * F32.rnd (1 / p.2)) : ℚ) < 2 ^ 18 + 1 := by
      have : (2 * 32768 * (1 + u24) * (p.1.sum * F32.rnd (1 / p.2)) : ℚ) ≤ 2 * 32768 * (1 + u24) * 4 :=
        mul_le_mul_of_nonneg_left h3 (by have := u24_pos; positivity)
      refine lt_of_le_of_lt this ?_
      unfold u24; norm_num
    have h5 := lt_of_le_of_lt k h4
    have : ((p.1.map fun v => F32.rnd (v * F32.rnd (1 / p.2))).map (quantise F32.rnd)).sum < 2 ^ 18 + 1 := by
      exact_mod_cast h5
    omega
  · rw [List.map_replicate, quantise_zero RoundOK.rnd]
    simp

/-- **The normalised weights of a window add up to one up to `(2 n + 5) 2^-24`.** -/
theorem normRow_sum_near (p : List ℚ × ℚ) (hw : ∀ w ∈ p.1, 0 ≤ w) (hpos : 0 < p.2) (hle : p.2 ≤ 2 ^ 126)
    (hn : p.1.length ≤ 2 ^ 23) (hS : SumNear p) :
    |(normRow F32.rnd p).sum - 1| ≤ (2 * p.1.length + 5) * u24 := by
  have hnu := nu_le hn
  have u0 := u24_pos
  have hsum0 : 0 ≤ p.1.sum := List.sum_nonneg hw
  set t : ℚ := p.1.length * u24 with ht
  have ht0 : 0 ≤ t := by rw [ht]; positivity
  set r := F32.rnd (1 / p.2) with hr
  have hr0 : 0 ≤ r := RoundOK.rnd.nonneg (by positivity)
  have hinv : 0 < 1 / p.2 := by positivity
  have hrel : |r - 1 / p.2| ≤ 1 / p.2 * u24 := by
    have h1 : 1 / 2 ^ 126 ≤ |1 / p.2| := by
      rw [abs_of_pos hinv]
      exact one_div_le_one_div_of_le hpos hle
    have := rnd_err_rel h1
    rw [abs_of_pos hinv] at this
    refine le_trans this (le_of_eq ?_)
    unfold u24; ring
  have key : ∀ l : List ℚ, (∀ w ∈ l, 0 ≤ w) →
      |(l.map fun v => F32.rnd (v * r)).sum - l.sum * r| ≤ l.sum * r * u24 + l.length * (1 / 2 ^ 150) := by
    intro l hl
    induction l with
    | nil => simp
    | cons a t ih =>
      have h1 := rnd_err_le (a * r)
      have ha := mul_nonneg (hl a List.mem_cons_self) hr0
      rw [abs_of_nonneg ha] at h1
      have h2 := ih fun w h => hl w (List.mem_cons_of_mem _ h)
      have e : a * r / 2 ^ 24 = a * r * u24 := by unfold u24; ring
      rw [e] at h1
      simp only [List.map_cons, List.sum_cons, List.length_cons]
      rw [abs_le] at *
      push_cast
      constructor <;> linarith [h1.1, h1.2, h2.1, h2.2]
  have k := key p.1 hw
  have heta : (p.1.length : ℚ) * (1 / 2 ^ 150) ≤ u24 / 2 ^ 10 := by
    have : (p.1.length : ℚ) ≤ 2 ^ 23 := by exact_mod_cast hn
    refine le_trans (mul_le_mul_of_nonneg_right this (by positivity)) ?_
    unfold u24; norm_num
  obtain ⟨s1, s2⟩ := hS
  rw [← ht] at s1 s2
  -- ratio `p.1.sum / p.2`
  set g := p.1.sum / p.2 with hg
  have g1 : 1 - t ≤ g := by rw [hg, le_div_iff₀ hpos]; linarith
  have g2 : g * (1 - t) ≤ 1 := by
    rw [hg, div_mul_eq_mul_div, div_le_one hpos]; linarith
  have g3 : g ≤ 1 + 2 * t := by nlinarith
  have hgr : |p.1.sum * r - g| ≤ g * u24 := by
    have e : p.1.sum * r - g = p.1.sum * (r - 1 / p.2) := by rw [hg]; ring
    rw [e, abs_mul, abs_of_nonneg hsum0]
    refine le_trans (mul_le_mul_of_nonneg_left hrel hsum0) (le_of_eq ?_)
    rw [hg]; ring
  unfold normRow
  rw [if_pos (ne_of_gt hpos)]
  rw [abs_le] at hgr k ⊢
  have hg0 : 0 ≤ g := by linarith
  have b1 : p.1.sum * r ≤ g * (1 + u24) := by linarith [hgr.2]
  have b2 : g * (1 - u24) ≤ p.1.sum * r := by linarith [hgr.1]
  have hu : u24 ≤ 1 / 1024 := by unfold u24; norm_num
  have e5 : (2 * (p.1.length : ℚ) + 5) * u24 = 2 * t + 5 * u24 := by rw [ht]; ring
  rw [e5]
  have b0 : 0 ≤ p.1.sum * r := mul_nonneg hsum0 hr0
  have q1 : p.1.sum * r * u24 ≤ g * (1 + u24) * u24 := mul_le_mul_of_nonneg_right b1 u0.le
  have q2 : g * u24 ≤ 2 * u24 := mul_le_mul_of_nonneg_right (by linarith) u0.le
  have q3 : g * u24 * u24 ≤ 2 * u24 * (1 / 1024) := mul_le_mul q2 hu u0.le (by linarith)
  have q4 : g * (1 + u24) * u24 = g * u24 + g * u24 * u24 := by ring
  have q5 : g * u24 * u24 ≥ 0 := by positivity
  constructor
  · linarith [k.1]
  · linarith [k.2]

end PicScale
