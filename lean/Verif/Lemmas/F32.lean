import Verif.Model.F32
import Mathlib.Tactic.Linarith
import Mathlib.Tactic.Ring
import Mathlib.Tactic.FieldSimp
import Mathlib.Tactic.Positivity
import Mathlib.Algebra.Order.Field.Power
import Mathlib.Data.Nat.Log
import Mathlib.Tactic.NormNum

namespace PicScale.F32

theorem pow2_eq (e : ℤ) : pow2 e = (2 : ℚ) ^ e := by
  unfold pow2
  split_ifs with h
  · obtain ⟨n, rfl⟩ := Int.eq_ofNat_of_zero_le h
    simp
  · obtain ⟨n, hn⟩ := Int.eq_ofNat_of_zero_le (show 0 ≤ -e by omega)
    have : e = -(n : ℤ) := by omega
    subst this
    rw [Rat.mkRat_eq_div]
    simp

theorem ilog2_spec {q : ℚ} (hq : 0 < q) : (2 : ℚ) ^ ilog2 q ≤ q ∧ q < (2 : ℚ) ^ (ilog2 q + 1) := by
  have hn : 0 < q.num := Rat.num_pos.2 hq
  have hd : 0 < q.den := q.den_pos
  set n := q.num.natAbs with hnn
  have hn0 : n ≠ 0 := by omega
  set a := n.log2 with ha
  set b := q.den.log2 with hb
  have hq' : q = (n : ℚ) / q.den := by
    conv_lhs => rw [← Rat.num_div_den q]
    congr 1
    have : (n : ℤ) = q.num := by omega
    exact_mod_cast this.symm
  have h1 : 2 ^ a ≤ n := Nat.log2_self_le hn0
  have h2 : n < 2 ^ (a + 1) := Nat.lt_log2_self
  have h3 : 2 ^ b ≤ q.den := Nat.log2_self_le (by omega)
  have h4 : q.den < 2 ^ (b + 1) := Nat.lt_log2_self
  have h1' : (2 : ℚ) ^ a ≤ n := by exact_mod_cast h1
  have h2' : (n : ℚ) < 2 ^ (a + 1) := by exact_mod_cast h2
  have h3' : (2 : ℚ) ^ b ≤ q.den := by exact_mod_cast h3
  have h4' : (q.den : ℚ) < 2 ^ (b + 1) := by exact_mod_cast h4
  have hdp : (0 : ℚ) < q.den := by exact_mod_cast hd
  have hlow : (2 : ℚ) ^ ((a : ℤ) - b - 1) ≤ q := by
    rw [hq', le_div_iff₀ hdp]
    have : (2 : ℚ) ^ ((a : ℤ) - b - 1) * 2 ^ (b + 1) = 2 ^ a := by
      rw [← zpow_natCast, ← zpow_add₀ (by norm_num), ← zpow_natCast]
      congr 1; push_cast; ring
    have hp : (0 : ℚ) < 2 ^ ((a : ℤ) - b - 1) := by positivity
    nlinarith
  have hhigh : q < (2 : ℚ) ^ ((a : ℤ) - b + 1) := by
    rw [hq', div_lt_iff₀ hdp]
    have : (2 : ℚ) ^ ((a : ℤ) - b + 1) * 2 ^ b = 2 ^ (a + 1) := by
      rw [← zpow_natCast, ← zpow_add₀ (by norm_num), ← zpow_natCast]
      congr 1; push_cast; ring
    have hp : (0 : ℚ) < 2 ^ ((a : ℤ) - b + 1) := by positivity
    nlinarith
  unfold ilog2
  dsimp only
  rw [pow2_eq]
  split_ifs with h
  · exact ⟨h, hhigh⟩
  · push Not at h
    refine ⟨hlow, ?_⟩
    rw [sub_add_cancel]
    exact h

theorem ilog2_unique {q : ℚ} {e : ℤ} (h1 : (2 : ℚ) ^ e ≤ q) (h2 : q < (2 : ℚ) ^ (e + 1)) :
    ilog2 q = e := by
  have hq : 0 < q := lt_of_lt_of_le (by positivity) h1
  obtain ⟨h3, h4⟩ := ilog2_spec hq
  have a : e < ilog2 q + 1 := (zpow_lt_zpow_iff_right₀ (by norm_num : (1 : ℚ) < 2)).1 (lt_of_le_of_lt h1 h4)
  have b : ilog2 q < e + 1 := (zpow_lt_zpow_iff_right₀ (by norm_num : (1 : ℚ) < 2)).1 (lt_of_le_of_lt h3 h2)
  omega

theorem ilog2_mono {a b : ℚ} (ha : 0 < a) (h : a ≤ b) : ilog2 a ≤ ilog2 b := by
  obtain ⟨h1, _⟩ := ilog2_spec ha
  obtain ⟨_, h2⟩ := ilog2_spec (lt_of_lt_of_le ha h)
  have : ilog2 a < ilog2 b + 1 :=
    (zpow_lt_zpow_iff_right₀ (by norm_num : (1 : ℚ) < 2)).1 (lt_of_le_of_lt (le_trans h1 h) h2)
  omega

/-- `rhe` is a nearest integer. -/
theorem rhe_spec (q : ℚ) : |(rhe q : ℚ) - q| ≤ 1 / 2 := by
  have hd : (0 : ℚ) < q.den := by exact_mod_cast q.den_pos
  have hdz : (0 : ℤ) < q.den := by exact_mod_cast q.den_pos
  have e1 : q = ((q.num / q.den : ℤ) : ℚ) + ((q.num % q.den : ℤ) : ℚ) / q.den := by
    have : q.num = q.den * (q.num / q.den) + q.num % q.den := (Int.mul_ediv_add_emod q.num q.den).symm
    have h2 : (q.num : ℚ) = q.den * ((q.num / q.den : ℤ) : ℚ) + ((q.num % q.den : ℤ) : ℚ) := by
      exact_mod_cast this
    conv_lhs => rw [← Rat.num_div_den q, h2]
    field_simp
  have hr0 : 0 ≤ q.num % q.den := Int.emod_nonneg _ (by omega)
  have hr1 : q.num % q.den < q.den := Int.emod_lt_of_pos _ hdz
  have hr0' : (0 : ℚ) ≤ ((q.num % q.den : ℤ) : ℚ) := by exact_mod_cast hr0
  have hr1' : ((q.num % q.den : ℤ) : ℚ) < q.den := by exact_mod_cast hr1
  set f := q.num / (q.den : ℤ)
  set r := q.num % (q.den : ℤ)
  set t : ℚ := (r : ℚ) / q.den with ht
  have ht0 : 0 ≤ t := by positivity
  have ht1 : t < 1 := by rw [ht, div_lt_one hd]; exact hr1'
  have low : 2 * r ≤ q.den → t ≤ 1 / 2 := by
    intro h
    have : (2 * r : ℚ) ≤ q.den := by exact_mod_cast h
    rw [ht, div_le_iff₀ hd]; linarith
  have high : (q.den : ℤ) ≤ 2 * r → 1 / 2 ≤ t := by
    intro h
    have : (q.den : ℚ) ≤ 2 * r := by exact_mod_cast h
    rw [ht, le_div_iff₀ hd]; linarith
  unfold rhe
  dsimp only
  change |((if 2 * r < (q.den : ℤ) then f else if (q.den : ℤ) < 2 * r then f + 1 else if f % 2 = 0 then f else f + 1 : ℤ) : ℚ) - q| ≤ 1 / 2
  rw [abs_le]
  split_ifs with h1 h2 h3
  · have := low (le_of_lt h1); constructor <;> linarith
  · have := high (le_of_lt h2); push_cast; constructor <;> linarith
  · have := low (by omega); have := high (by omega); constructor <;> linarith
  · have := low (by omega); have := high (by omega); push_cast; constructor <;> linarith

@[simp] theorem rhe_intCast (z : ℤ) : rhe (z : ℚ) = z := by
  have h := rhe_spec (z : ℚ)
  rw [abs_le] at h
  have h1 : ((rhe (z : ℚ) : ℤ) : ℚ) < z + 1 := by linarith
  have h2 : (z : ℚ) < ((rhe (z : ℚ) : ℤ) : ℚ) + 1 := by linarith
  have h1' : rhe (z : ℚ) < z + 1 := by exact_mod_cast h1
  have h2' : z < rhe (z : ℚ) + 1 := by exact_mod_cast h2
  omega

/-- Case description of `rhe` in terms of the floor. -/
theorem rhe_cases (q : ℚ) : (q - ⌊q⌋ < 1 / 2 ∧ rhe q = ⌊q⌋) ∨ (1 / 2 < q - ⌊q⌋ ∧ rhe q = ⌊q⌋ + 1) ∨
    (q - ⌊q⌋ = 1 / 2 ∧ rhe q = if ⌊q⌋ % 2 = 0 then ⌊q⌋ else ⌊q⌋ + 1) := by
  have hd : (0 : ℚ) < q.den := by exact_mod_cast q.den_pos
  have hf : ⌊q⌋ = q.num / q.den := Rat.floor_def'
  have e1 : q - ⌊q⌋ = ((q.num % q.den : ℤ) : ℚ) / q.den := by
    have : q.num = q.den * (q.num / q.den) + q.num % q.den := (Int.mul_ediv_add_emod q.num q.den).symm
    have h2 : (q.num : ℚ) = q.den * ((q.num / q.den : ℤ) : ℚ) + ((q.num % q.den : ℤ) : ℚ) := by
      exact_mod_cast this
    rw [hf, eq_div_iff (ne_of_gt hd)]
    have h3 : q * q.den = q.num := Rat.mul_den_eq_num q
    linarith
  rw [e1, hf]
  unfold rhe
  dsimp only
  generalize q.num % (q.den : ℤ) = r at *
  generalize q.num / (q.den : ℤ) = f at *
  by_cases h1 : 2 * r < q.den
  · left
    refine ⟨?_, by rw [if_pos h1]⟩
    have : (2 * r : ℚ) < q.den := by exact_mod_cast h1
    rw [div_lt_iff₀ hd]; linarith
  · by_cases h2 : (q.den : ℤ) < 2 * r
    · right; left
      refine ⟨?_, by rw [if_neg h1, if_pos h2]⟩
      have : (q.den : ℚ) < 2 * r := by exact_mod_cast h2
      rw [lt_div_iff₀ hd]; linarith
    · right; right
      refine ⟨?_, by rw [if_neg h1, if_neg h2]⟩
      have : (2 * r : ℚ) = q.den := by
        have : 2 * r = q.den := by omega
        exact_mod_cast this
      rw [div_eq_iff (ne_of_gt hd)]; linarith

theorem rhe_mono {a b : ℚ} (h : a ≤ b) : rhe a ≤ rhe b := by
  have hf : ⌊a⌋ ≤ ⌊b⌋ := Int.floor_mono h
  rcases lt_or_eq_of_le hf with hlt | heq
  · have ha : rhe a ≤ ⌊a⌋ + 1 := by
      rcases rhe_cases a with ⟨_, h⟩ | ⟨_, h⟩ | ⟨_, h⟩ <;> rw [h] <;> (try split_ifs) <;> omega
    have hb : ⌊b⌋ ≤ rhe b := by
      rcases rhe_cases b with ⟨_, h⟩ | ⟨_, h⟩ | ⟨_, h⟩ <;> rw [h] <;> (try split_ifs) <;> omega
    omega
  · have hfe : (⌊a⌋ : ℚ) = ⌊b⌋ := by exact_mod_cast heq
    rcases rhe_cases a with ⟨h1, e1⟩ | ⟨h1, e1⟩ | ⟨h1, e1⟩ <;>
    rcases rhe_cases b with ⟨h2, e2⟩ | ⟨h2, e2⟩ | ⟨h2, e2⟩ <;> rw [e1, e2] <;>
      first
        | omega
        | (exfalso; linarith)
        | (rw [heq]; split_ifs <;> omega)

theorem rhe_neg (q : ℚ) : rhe (-q) = -rhe q := by
  rcases rhe_cases q with ⟨h1, e1⟩ | ⟨h1, e1⟩ | ⟨h1, e1⟩
  · by_cases h0 : q = ⌊q⌋
    · rw [h0, ← Int.cast_neg, rhe_intCast, rhe_intCast]
    · have hlt : (⌊q⌋ : ℚ) < q := lt_of_le_of_ne (Int.floor_le q) (Ne.symm h0)
      have hfl : ⌊-q⌋ = -⌊q⌋ - 1 := by
        rw [Int.floor_eq_iff]; push_cast; constructor <;> linarith
      have hfq : ((⌊-q⌋ : ℤ) : ℚ) = -⌊q⌋ - 1 := by rw [hfl]; push_cast; ring
      rcases rhe_cases (-q) with ⟨h2, e2⟩ | ⟨h2, e2⟩ | ⟨h2, e2⟩
      · exfalso; linarith
      · rw [e2, e1, hfl]; ring
      · exfalso; linarith
  · have hlt := Int.lt_floor_add_one q
    have hfl : ⌊-q⌋ = -⌊q⌋ - 1 := by
      rw [Int.floor_eq_iff]; push_cast; constructor <;> linarith
    have hfq : ((⌊-q⌋ : ℤ) : ℚ) = -⌊q⌋ - 1 := by rw [hfl]; push_cast; ring
    rcases rhe_cases (-q) with ⟨h2, e2⟩ | ⟨h2, e2⟩ | ⟨h2, e2⟩
    · rw [e2, e1, hfl]; ring
    · exfalso; linarith
    · exfalso; linarith
  · have hfl : ⌊-q⌋ = -⌊q⌋ - 1 := by
      rw [Int.floor_eq_iff]; push_cast; constructor <;> linarith
    have hfq : ((⌊-q⌋ : ℤ) : ℚ) = -⌊q⌋ - 1 := by rw [hfl]; push_cast; ring
    rcases rhe_cases (-q) with ⟨h2, e2⟩ | ⟨h2, e2⟩ | ⟨h2, e2⟩
    · exfalso; linarith
    · exfalso; linarith
    · rw [e2, e1, hfl]
      split_ifs <;> omega

theorem qexp_neg (q : ℚ) : qexp (-q) = qexp q := by simp [qexp]

theorem rnd_def (q : ℚ) : rnd q = (rhe (q / (2 : ℚ) ^ qexp q) : ℚ) * (2 : ℚ) ^ qexp q := by
  unfold rnd
  split_ifs with h
  · subst h
    rw [zero_div, ← Int.cast_zero, rhe_intCast]; simp
  · rw [pow2_eq]

@[simp] theorem rnd_zero : rnd 0 = 0 := by simp [rnd]

theorem rnd_neg (q : ℚ) : rnd (-q) = -rnd q := by
  rw [rnd_def, rnd_def, qexp_neg, neg_div, rhe_neg]; push_cast; ring

/-- Numbers with a 24 bit significand are exact. -/
theorem rnd_exact {q : ℚ} {m e : ℤ} (hq : q = m * (2 : ℚ) ^ e) (hm : |m| ≤ 2 ^ 24) (he : -149 ≤ e) :
    rnd q = q := by
  by_cases h0 : q = 0
  · rw [h0, rnd_zero]
  have key : ∃ z : ℤ, q / (2 : ℚ) ^ qexp q = z := by
    have habs : 0 < |q| := abs_pos.2 h0
    obtain ⟨h1, h2⟩ := ilog2_spec habs
    have h2e : (0 : ℚ) < 2 ^ e := by positivity
    have hab : |q| = |(m : ℚ)| * 2 ^ e := by rw [hq, abs_mul, abs_of_pos h2e]
    have hmq : |(m : ℚ)| ≤ 2 ^ 24 := by exact_mod_cast hm
    rcases eq_or_lt_of_le hmq with hmeq | hmlt
    · -- |q| = 2^(24+e)
      have hpow : |q| = 2 ^ (24 + e) := by
        rw [hab, hmeq, zpow_add₀ (by norm_num)]; norm_num
      have hl : ilog2 |q| = 24 + e := ilog2_unique (le_of_eq hpow.symm) (by
        rw [hpow]; exact zpow_lt_zpow_right₀ (by norm_num) (by omega))
      have hqe : qexp q = e + 1 := by unfold qexp; rw [hl]; omega
      rw [hqe]
      have : |m| = 2 ^ 24 := by exact_mod_cast hmeq
      rcases abs_eq (by norm_num) |>.1 this with hm' | hm'
      · refine ⟨2 ^ 23, ?_⟩
        rw [hq, hm', zpow_add₀ (by norm_num)]; field_simp; norm_num
      · refine ⟨-2 ^ 23, ?_⟩
        rw [hq, hm', zpow_add₀ (by norm_num)]; field_simp; norm_num
    · have hlt : ilog2 |q| < 24 + e := by
        apply (zpow_lt_zpow_iff_right₀ (by norm_num : (1 : ℚ) < 2)).1
        refine lt_of_le_of_lt h1 ?_
        rw [hab, zpow_add₀ (by norm_num)]
        have : (2 : ℚ) ^ (24 : ℤ) = 2 ^ 24 := by norm_num
        rw [this]
        exact mul_lt_mul_of_pos_right hmlt h2e
      have hle : qexp q ≤ e := by unfold qexp; omega
      generalize qexp q = g at hle ⊢
      obtain ⟨k, hk⟩ := Int.eq_ofNat_of_zero_le (show 0 ≤ e - g by omega)
      refine ⟨m * 2 ^ k, ?_⟩
      have : e = k + g := by omega
      rw [hq, this, zpow_add₀ (by norm_num), zpow_natCast]
      push_cast
      field_simp
  obtain ⟨z, hz⟩ := key
  rw [rnd_def, hz, rhe_intCast, ← hz]
  field_simp

theorem rnd_nonneg {q : ℚ} (h : 0 ≤ q) : 0 ≤ rnd q := by
  rw [rnd_def]
  have h1 : (0 : ℚ) < 2 ^ qexp q := by positivity
  have h2 : (0 : ℤ) ≤ rhe (q / 2 ^ qexp q) := by
    have := rhe_mono (a := ((0 : ℤ) : ℚ)) (b := q / 2 ^ qexp q) (by push_cast; positivity)
    rwa [rhe_intCast] at this
  have : (0 : ℚ) ≤ rhe (q / 2 ^ qexp q) := by exact_mod_cast h2
  positivity

theorem rnd_le_pow {q : ℚ} (h : 0 < q) : rnd q ≤ 2 ^ (qexp q + 24) := by
  rw [rnd_def]
  have h1 : (0 : ℚ) < 2 ^ qexp q := by positivity
  obtain ⟨_, h2⟩ := ilog2_spec h
  have h3 : q / 2 ^ qexp q ≤ ((2 ^ 24 : ℤ) : ℚ) := by
    rw [div_le_iff₀ h1]
    refine le_trans (le_of_lt h2) ?_
    have : ((2 ^ 24 : ℤ) : ℚ) = 2 ^ (24 : ℤ) := by norm_num
    rw [this, ← zpow_add₀ (by norm_num)]
    apply zpow_le_zpow_right₀ (by norm_num)
    unfold qexp; rw [abs_of_pos h]; omega
  have h4 := rhe_mono h3
  rw [rhe_intCast] at h4
  have h5 : ((rhe (q / 2 ^ qexp q) : ℤ) : ℚ) ≤ 2 ^ 24 := by exact_mod_cast h4
  rw [add_comm, zpow_add₀ (by norm_num)]
  refine mul_le_mul_of_nonneg_right (le_trans h5 (by norm_num)) (le_of_lt h1)

theorem pow_le_rnd {q : ℚ} (h : 0 < q) (hn : -149 ≤ ilog2 q - 23) : 2 ^ ilog2 q ≤ rnd q := by
  have hqe : qexp q = ilog2 q - 23 := by unfold qexp; rw [abs_of_pos h]; omega
  rw [rnd_def, hqe]
  have h1 : (0 : ℚ) < 2 ^ (ilog2 q - 23) := by positivity
  obtain ⟨h2, _⟩ := ilog2_spec h
  have h3 : ((2 ^ 23 : ℤ) : ℚ) ≤ q / 2 ^ (ilog2 q - 23) := by
    rw [le_div_iff₀ h1]
    refine le_trans (le_of_eq ?_) h2
    have : ((2 ^ 23 : ℤ) : ℚ) = 2 ^ (23 : ℤ) := by norm_num
    rw [this, ← zpow_add₀ (by norm_num)]
    congr 1; omega
  have h4 := rhe_mono h3
  rw [rhe_intCast] at h4
  have h5 : (2 : ℚ) ^ 23 ≤ ((rhe (q / 2 ^ (ilog2 q - 23)) : ℤ) : ℚ) := by exact_mod_cast h4
  have : (2 : ℚ) ^ ilog2 q = 2 ^ 23 * 2 ^ (ilog2 q - 23) := by
    have : ((2 : ℚ) ^ 23) = 2 ^ (23 : ℤ) := by norm_num
    rw [this, ← zpow_add₀ (by norm_num)]
    congr 1; omega
  rw [this]
  exact mul_le_mul_of_nonneg_right h5 (le_of_lt h1)

theorem rnd_mono_pos {a b : ℚ} (ha : 0 < a) (h : a ≤ b) : rnd a ≤ rnd b := by
  have hb : 0 < b := lt_of_lt_of_le ha h
  have hl := ilog2_mono ha h
  rcases lt_trichotomy (qexp a) (qexp b) with hlt | heq | hgt
  · have hqb : qexp b = ilog2 b - 23 := by
      unfold qexp at hlt ⊢; rw [abs_of_pos hb, abs_of_pos ha] at *; omega
    have h0 : -149 ≤ qexp a := by unfold qexp; omega
    refine le_trans (rnd_le_pow ha) (le_trans ?_ (pow_le_rnd hb (by omega)))
    exact zpow_le_zpow_right₀ (by norm_num) (by omega)
  · rw [rnd_def, rnd_def, heq]
    have h1 : (0 : ℚ) < 2 ^ qexp b := by positivity
    apply mul_le_mul_of_nonneg_right _ (le_of_lt h1)
    exact_mod_cast rhe_mono (div_le_div_of_nonneg_right h (le_of_lt h1))
  · exfalso
    unfold qexp at hgt; rw [abs_of_pos hb, abs_of_pos ha] at hgt; omega

theorem rnd_mono {a b : ℚ} (h : a ≤ b) : rnd a ≤ rnd b := by
  rcases lt_or_ge 0 a with ha | ha
  · exact rnd_mono_pos ha h
  · rcases lt_or_ge b 0 with hb | hb
    · have := rnd_mono_pos (a := -b) (b := -a) (by linarith) (by linarith)
      rw [rnd_neg, rnd_neg] at this
      linarith
    · have h1 := rnd_nonneg (q := -a) (by linarith)
      rw [rnd_neg] at h1
      have h2 := rnd_nonneg hb
      linarith

/-- A binary32 number: integer significand of at most 24 bits. -/
def Rep (q : ℚ) : Prop := ∃ m e : ℤ, q = m * (2 : ℚ) ^ e ∧ |m| ≤ 2 ^ 24 ∧ -149 ≤ e

theorem Rep.rnd {q : ℚ} (h : Rep q) : F32.rnd q = q := by
  obtain ⟨m, e, h1, h2, h3⟩ := h
  exact rnd_exact h1 h2 h3

theorem rep_half {z : ℤ} (h : |z| ≤ 2 ^ 24) : Rep ((z : ℚ) / 2) :=
  ⟨z, -1, by rw [zpow_neg_one]; ring, h, by omega⟩

theorem rep_int {z : ℤ} (h : |z| ≤ 2 ^ 24) : Rep (z : ℚ) := ⟨z, 0, by simp, h, by omega⟩

theorem rep_nat {n : ℕ} (h : n ≤ 2 ^ 24) : Rep (n : ℚ) := by
  have := rep_int (z := (n : ℤ)) (by rw [abs_of_nonneg (by omega)]; exact_mod_cast h)
  simpa using this

theorem ofNat_exact {n : ℕ} (h : n ≤ 2 ^ 24) : F32.ofNat n = n := (rep_nat h).rnd

theorem le_rnd {a q : ℚ} (ha : Rep a) (h : a ≤ q) : a ≤ rnd q := by
  have := rnd_mono h
  rwa [ha.rnd] at this

theorem rnd_le {a q : ℚ} (ha : Rep a) (h : q ≤ a) : rnd q ≤ a := by
  have := rnd_mono h
  rwa [ha.rnd] at this

theorem rnd_err (q : ℚ) : |rnd q - q| ≤ 2 ^ qexp q / 2 := by
  have h1 : (0 : ℚ) < 2 ^ qexp q := by positivity
  rw [rnd_def]
  have h := rhe_spec (q / 2 ^ qexp q)
  have e : (rhe (q / 2 ^ qexp q) : ℚ) * 2 ^ qexp q - q =
      ((rhe (q / 2 ^ qexp q) : ℚ) - q / 2 ^ qexp q) * 2 ^ qexp q := by
    field_simp
  rw [e, abs_mul, abs_of_pos h1]
  nlinarith

/-- Error of one rounding: half an ulp, relative `2^-24` plus the subnormal term `2^-150`. -/
theorem rnd_err_le (q : ℚ) : |rnd q - q| ≤ |q| / 2 ^ 24 + 1 / 2 ^ 150 := by
  by_cases h0 : q = 0
  · subst h0; simp
  have hq : 0 < |q| := abs_pos.2 h0
  refine le_trans (rnd_err q) ?_
  obtain ⟨h1, _⟩ := ilog2_spec hq
  rcases le_total (-149) (ilog2 |q| - 23) with h | h
  · have hqe : qexp q = ilog2 |q| - 23 := by unfold qexp; omega
    rw [hqe]
    have : (2 : ℚ) ^ (ilog2 |q| - 23) / 2 = 2 ^ ilog2 |q| / 2 ^ 24 := by
      rw [zpow_sub₀ (by norm_num)]; norm_num; ring
    rw [this]
    have : (2 : ℚ) ^ ilog2 |q| / 2 ^ 24 ≤ |q| / 2 ^ 24 := by
      apply div_le_div_of_nonneg_right h1; positivity
    have : (0 : ℚ) ≤ 1 / 2 ^ 150 := by positivity
    linarith
  · have hqe : qexp q = -149 := by unfold qexp; omega
    rw [hqe]
    have : (2 : ℚ) ^ (-149 : ℤ) / 2 = 1 / 2 ^ 150 := by norm_num
    rw [this]
    have : 0 ≤ |q| / 2 ^ 24 := by positivity
    linarith

/-- Purely relative error bound in the normal range. -/
theorem rnd_err_rel {q : ℚ} (h : 1 / 2 ^ 126 ≤ |q|) : |rnd q - q| ≤ |q| / 2 ^ 24 := by
  have hq : 0 < |q| := lt_of_lt_of_le (by positivity) h
  refine le_trans (rnd_err q) ?_
  obtain ⟨h1, h2⟩ := ilog2_spec hq
  have h3 : -126 < ilog2 |q| + 1 := by
    apply (zpow_lt_zpow_iff_right₀ (by norm_num : (1 : ℚ) < 2)).1
    refine lt_of_le_of_lt ?_ h2
    refine le_trans (le_of_eq ?_) h
    norm_num
  have hqe : qexp q = ilog2 |q| - 23 := by unfold qexp; omega
  rw [hqe]
  have : (2 : ℚ) ^ (ilog2 |q| - 23) / 2 = 2 ^ ilog2 |q| / 2 ^ 24 := by
    rw [zpow_sub₀ (by norm_num)]; norm_num; ring
  rw [this]
  apply div_le_div_of_nonneg_right h1; positivity

/-- Rounding produces a binary32 number (rounding is idempotent). -/
theorem rep_rnd (q : ℚ) : Rep (rnd q) := by
  by_cases h0 : q = 0
  · subst h0; exact ⟨0, 0, by simp, by norm_num, by omega⟩
  have hq : 0 < |q| := abs_pos.2 h0
  refine ⟨rhe (q / 2 ^ qexp q), qexp q, rnd_def q, ?_, by unfold qexp; omega⟩
  obtain ⟨_, h2⟩ := ilog2_spec hq
  have h1 : (0 : ℚ) < 2 ^ qexp q := by positivity
  have h3 : |q / 2 ^ qexp q| ≤ 2 ^ 24 := by
    rw [abs_div, abs_of_pos h1, div_le_iff₀ h1]
    refine le_trans (le_of_lt h2) ?_
    have : ((2 : ℚ) ^ 24) = 2 ^ (24 : ℤ) := by norm_num
    rw [this, ← zpow_add₀ (by norm_num)]
    apply zpow_le_zpow_right₀ (by norm_num)
    unfold qexp; omega
  rw [abs_le] at h3 ⊢
  have a := rhe_mono (b := q / 2 ^ qexp q) (a := ((-2 ^ 24 : ℤ) : ℚ)) (by push_cast; exact h3.1)
  have b := rhe_mono (a := q / 2 ^ qexp q) (b := ((2 ^ 24 : ℤ) : ℚ)) (by push_cast; exact h3.2)
  rw [rhe_intCast] at a b
  exact ⟨a, b⟩

/-- A value a little (relative `2^-25`) below a natural number rounds up to it. -/
theorem rnd_just_below {c : ℕ} (hc0 : 0 < c) (hc : c ≤ 2 ^ 23) {q : ℚ} (hq : (c : ℚ) * (1 - 1 / 2 ^ 25) ≤ q) :
    (c : ℚ) ≤ rnd q := by
  refine le_trans ?_ (rnd_mono hq)
  set q0 : ℚ := (c : ℚ) * (1 - 1 / 2 ^ 25) with hq0
  have hcq : (1 : ℚ) ≤ c := by exact_mod_cast hc0
  have hcq' : (c : ℚ) ≤ 2 ^ 23 := by exact_mod_cast hc
  have hpos : 0 < q0 := by rw [hq0]; apply mul_pos (by linarith); norm_num
  obtain ⟨l1, l2⟩ := ilog2_spec (q := (c : ℚ)) (by linarith)
  set k := ilog2 (c : ℚ) with hk
  have hk0 : 0 ≤ k := by
    by_contra h
    have : (2 : ℚ) ^ (k + 1) ≤ 2 ^ (0 : ℤ) := zpow_le_zpow_right₀ (by norm_num) (by omega)
    rw [zpow_zero] at this; linarith
  have hk1 : k ≤ 23 := by
    by_contra h
    have : (2 : ℚ) ^ (24 : ℤ) ≤ 2 ^ k := zpow_le_zpow_right₀ (by norm_num) (by omega)
    have h24 : (2 : ℚ) ^ (24 : ℤ) = 2 ^ 24 := by norm_num
    rw [h24] at this
    have : (2 : ℚ) ^ 24 ≤ 2 ^ 23 := by linarith
    norm_num at this
  rw [rnd_def]
  rcases eq_or_lt_of_le l1 with he | hlt
  · -- a power of two
    have e : ilog2 q0 = k - 1 := by
      apply ilog2_unique
      · rw [hq0, ← he, zpow_sub₀ (by norm_num)]
        have : (0 : ℚ) < 2 ^ k := by positivity
        rw [zpow_one]; nlinarith
      · rw [sub_add_cancel, hq0, ← he]
        have : (0 : ℚ) < 2 ^ k := by positivity
        nlinarith
    have hE : qexp q0 = k - 24 := by
      unfold qexp; rw [abs_of_pos hpos, e]; omega
    rw [hE]
    have hz : q0 / (2 : ℚ) ^ (k - 24) = 2 ^ 24 - 1 / 2 := by
      rw [hq0, ← he, zpow_sub₀ (by norm_num)]
      have : (0 : ℚ) < 2 ^ k := by positivity
      field_simp
    rw [hz, show rhe (2 ^ 24 - 1 / 2) = 2 ^ 24 by decide +kernel, ← he, zpow_sub₀ (by norm_num)]
    push_cast
    have : (0 : ℚ) < 2 ^ k := by positivity
    field_simp
    norm_num
  · have hc1 : (2 : ℚ) ^ k + 1 ≤ c := by
      obtain ⟨j, hj⟩ := Int.eq_ofNat_of_zero_le hk0
      rw [hj, zpow_natCast] at hlt ⊢
      have : 2 ^ j < c := by exact_mod_cast hlt
      exact_mod_cast this
    have e : ilog2 q0 = k := by
      apply ilog2_unique
      · rw [hq0]; nlinarith
      · rw [hq0]; nlinarith
    have hE : qexp q0 = k - 23 := by
      unfold qexp; rw [abs_of_pos hpos, e]; omega
    rw [hE]
    obtain ⟨n, hn⟩ : ∃ n : ℕ, k + n = 23 := ⟨(23 - k).toNat, by omega⟩
    have h2 : (2 : ℚ) ^ (k - 23) = 1 / 2 ^ n := by
      rw [show k - 23 = -(n : ℤ) by omega, zpow_neg, zpow_natCast]; simp
    rw [h2]
    set N : ℕ := c * 2 ^ n with hN
    have hNq : (N : ℚ) = c * 2 ^ n := by rw [hN]; push_cast; ring
    have hNlt : (N : ℚ) < 2 ^ 24 := by
      rw [hNq]
      have h3 : (2 : ℚ) ^ (k + 1) * 2 ^ n = 2 ^ 24 := by
        rw [← zpow_natCast, ← zpow_natCast, ← zpow_add₀ (by norm_num)]
        congr 1; push_cast; omega
      rw [← h3]; gcongr
    have hz : q0 / (1 / 2 ^ n) = N - N / 2 ^ 25 := by
      rw [hq0, hNq]; field_simp
    rw [hz]
    have hs := rhe_spec ((N : ℚ) - N / 2 ^ 25)
    rw [abs_le] at hs
    have : (N : ℤ) ≤ rhe ((N : ℚ) - N / 2 ^ 25) := by
      have h5 : ((N : ℤ) : ℚ) < (rhe ((N : ℚ) - N / 2 ^ 25) : ℚ) + 1 := by
        push_cast
        have : (N : ℚ) / 2 ^ 25 < 1 / 2 := by rw [div_lt_iff₀ (by norm_num)]; linarith
        linarith
      have h6 : (N : ℤ) < rhe ((N : ℚ) - N / 2 ^ 25) + 1 := by exact_mod_cast h5
      omega
    have h7 : (N : ℚ) ≤ (rhe ((N : ℚ) - N / 2 ^ 25) : ℚ) := by exact_mod_cast this
    calc (c : ℚ) = N * (1 / 2 ^ n) := by rw [hNq]; field_simp
      _ ≤ _ := by gcongr

end PicScale.F32
