import Verif.Props.ResizeU16
import Verif.SpecAccuracy
import Mathlib.Tactic.Positivity
import Mathlib.Tactic.GCongr

/-!
C48: how far one pass can be from the exact weighted sum with the table's weights.
-/

namespace PicScale

open Spec Finset

theorem clampQ_mono (hi : ℕ) {a b : ℚ} (h : a ≤ b) : clampQ hi a ≤ clampQ hi b := by
  unfold clampQ; exact max_le_max le_rfl (min_le_min h le_rfl)

theorem clampQ_add_le (hi : ℕ) (a : ℚ) {e : ℚ} (he : 0 ≤ e) : clampQ hi (a + e) ≤ clampQ hi a + e := by
  unfold clampQ
  rcases le_total 0 (min a (hi : ℚ)) with h | h
  · rw [max_eq_right h]
    apply max_le (by linarith)
    rcases le_total a hi with h2 | h2
    · rw [min_eq_left h2]; exact min_le_left _ _
    · rw [min_eq_right h2]; exact le_trans (min_le_right _ _) (by linarith)
  · rw [max_eq_left h]
    apply max_le (by linarith)
    rcases min_le_iff.1 h with h | h
    · exact le_trans (min_le_left _ _) (by linarith)
    · exact le_trans (min_le_right _ _) (by linarith)

theorem clampQ_err (hi : ℕ) {a b e : ℚ} (h : |a - b| ≤ e) : |clampQ hi a - clampQ hi b| ≤ e := by
  rw [abs_le] at h ⊢
  have h0 : 0 ≤ e := by linarith
  have h1 := le_trans (clampQ_mono hi (show a ≤ b + e by linarith)) (clampQ_add_le hi b h0)
  have h2 := le_trans (clampQ_mono hi (show b ≤ a + e by linarith)) (clampQ_add_le hi a h0)
  constructor <;> linarith

theorem clamp_cast (hi : ℕ) (v : ℤ) : ((clamp hi v : ℕ) : ℚ) = clampQ hi v := by
  unfold clamp clampQ
  have h : (0 : ℤ) ≤ max 0 (min v hi) := le_max_left _ _
  have : (((max 0 (min v (hi : ℤ))).toNat : ℤ) : ℚ) = ((max 0 (min v (hi : ℤ)) : ℤ) : ℚ) := by rw [Int.toNat_of_nonneg h]
  push_cast at this
  exact this

theorem ceilClamp_cast (d : ℕ) (v : ℚ) : ((ceilClamp d v : ℕ) : ℚ) = clampQ (2 ^ d - 1) ⌈v⌉ := by
  have : ceilClamp d v = clamp (2 ^ d - 1) ⌈v⌉ := rfl
  rw [this, clamp_cast]

/-! ### fixed point -/

theorem fixed_sum_err {n M : ℕ} {w : ℕ → ℚ} {q : ℕ → ℤ} {p : ℕ → ℕ} (hq : ∀ k, k < n → |(q k : ℚ) - w k * 32768| ≤ 1)
    (hp : ∀ k, k < n → p k ≤ M) :
    |((wsum n q (fun k => (p k : ℤ)) : ℤ) : ℚ) / 32768 - exactSum n w p| ≤ n * M / 32768 := by
  have e : ((wsum n q (fun k => (p k : ℤ)) : ℤ) : ℚ) / 32768 - exactSum n w p =
      (∑ k ∈ range n, ((q k : ℚ) - w k * 32768) * (p k : ℚ)) / 32768 := by
    unfold wsum exactSum
    push_cast
    rw [eq_div_iff (by norm_num), sub_mul, div_mul_cancel₀ _ (by norm_num), sum_mul, ← sum_sub_distrib]
    exact sum_congr rfl fun k _ => by ring
  rw [e, abs_div, abs_of_pos (show (0 : ℚ) < 32768 by norm_num)]
  apply div_le_div_of_nonneg_right _ (by norm_num)
  refine le_trans (abs_sum_le_sum_abs _ _) ?_
  have : ∀ k ∈ range n, |((q k : ℚ) - w k * 32768) * (p k : ℚ)| ≤ M := by
    intro k hk
    have hk : k < n := by simpa using hk
    rw [abs_mul, abs_of_nonneg (show (0 : ℚ) ≤ p k by positivity)]
    have h1 := hq k hk
    have h2 : ((p k : ℕ) : ℚ) ≤ M := by exact_mod_cast hp k hk
    have h3 : (0 : ℚ) ≤ p k := by positivity
    nlinarith [abs_nonneg ((q k : ℚ) - w k * 32768)]
  have := sum_le_sum this
  rw [sum_const, card_range, nsmul_eq_mul] at this
  exact this

theorem quantise_err_one {w : ℚ} (hr : F32.Rep w) (h1 : -1 ≤ w) (h2 : w ≤ 1) :
    |(quantise F32.rnd w : ℚ) - w * 32768| ≤ 1 := by
  by_cases h : w ≤ 32767 / 32768
  · exact le_trans (quantise_err hr h1 h) (by norm_num)
  · have h3 : (32767 : ℤ) ≤ quantise F32.rnd w := by
      have := quantise_mono RoundOK.rnd (le_of_not_ge h)
      refine le_trans ?_ this
      decide +kernel
    have h4 := (quantise_range (ρ := F32.rnd) w).2
    have : quantise F32.rnd w = 32767 := le_antisymm h4 h3
    rw [this, abs_le]
    push_cast
    constructor <;> linarith

theorem fixedRound_err {hi n : ℕ} {q : ℕ → ℤ} {p : ℕ → ℕ} {S e : ℚ}
    (h : |((wsum n q (fun k => (p k : ℤ)) : ℤ) : ℚ) / 32768 - S| ≤ e) :
    |((fixedRound hi n q p : ℕ) : ℚ) - clampQ hi S| ≤ 1 / 2 + e := by
  unfold fixedRound
  rw [clamp_cast]
  apply clampQ_err
  unfold fixRound
  set a := ((wsum n q (fun k => (p k : ℤ)) : ℤ) : ℚ) / 32768
  have h1 := Int.floor_le (a + 1 / 2)
  have h2 := Int.lt_floor_add_one (a + 1 / 2)
  rw [abs_le] at h ⊢
  constructor <;> linarith

theorem fixedFloor_err {hi n : ℕ} {q : ℕ → ℤ} {p : ℕ → ℕ} {S e : ℚ}
    (h : |((wsum n q (fun k => (p k : ℤ)) : ℤ) : ℚ) / 32768 - S| ≤ e) :
    clampQ hi S - (1 + e) ≤ ((fixedFloor hi n q p : ℕ) : ℚ) ∧ ((fixedFloor hi n q p : ℕ) : ℚ) ≤ clampQ hi S + e := by
  unfold fixedFloor
  rw [clamp_cast]
  unfold fixFloor
  set a := ((wsum n q (fun k => (p k : ℤ)) : ℤ) : ℚ) / 32768
  have h1 := Int.floor_le a
  have h2 := Int.lt_floor_add_one a
  rw [abs_le] at h
  have h0 : 0 ≤ e := by linarith
  constructor
  · have := le_trans (clampQ_mono hi (show S ≤ (⌊a⌋ : ℚ) + (1 + e) by linarith)) (clampQ_add_le hi _ (by linarith))
    linarith
  · exact le_trans (clampQ_mono hi (show (⌊a⌋ : ℚ) ≤ S + e by linarith)) (clampQ_add_le hi _ h0)

/-! ### binary32 sums -/

theorem step_bound {u t g B X n e : ℚ} (hu : 0 < u) (ht : 0 < t) (hg : 1 ≤ g) (hB : 0 ≤ B) (hX : 0 ≤ X) (hn : 0 ≤ n)
    (ih : e ≤ (g - 1) * B + 2 * n * g * t) :
    (1 + u) * e + (1 + u) * (u * X + t) + u * (B + X) + t ≤
      ((1 + u) ^ 2 * g - 1) * (B + X) + 2 * (n + 1) * ((1 + u) ^ 2 * g) * t := by
  have k1 : (1 + u) * e ≤ (1 + u) * ((g - 1) * B + 2 * n * g * t) := mul_le_mul_of_nonneg_left ih (by linarith)
  have k2 : 0 ≤ (1 + u) * u * g * B := by positivity
  have k3 : 0 ≤ (1 + u) ^ 2 * (g - 1) * X := by
    have : 0 ≤ g - 1 := by linarith
    positivity
  have k4 : 0 ≤ 2 * n * g * t * (1 + u) * u := by positivity
  have k5 : (2 + u) * t ≤ 2 * (1 + u) ^ 2 * g * t := by
    have : 2 + u ≤ 2 * (1 + u) ^ 2 * g := by
      have : 2 * (1 + u) ^ 2 * 1 ≤ 2 * (1 + u) ^ 2 * g := mul_le_mul_of_nonneg_left hg (by positivity)
      nlinarith [sq_nonneg u]
    exact mul_le_mul_of_nonneg_right this ht.le
  linarith

theorem mlaf_step (fused : Bool) {ρ : ℚ → ℚ} {u t a s x y w B : ℚ} (hu : 0 < u) (ht : 0 < t)
    (hr : ∀ q, |ρ q - q| ≤ u * |q| + t) (hx : x = y * w) (hsB : |s| ≤ B) :
    |mlaf ρ fused a y w - (s + x)| ≤ (1 + u) * |a - s| + (1 + u) * (u * |x| + t) + u * (B + |x|) + t := by
  have ha : |a| ≤ B + |a - s| := by
    have h : a = s + (a - s) := by ring
    calc |a| = |s + (a - s)| := by rw [← h]
      _ ≤ |s| + |a - s| := abs_add_le _ _
      _ ≤ _ := by linarith
  have hx0 := abs_nonneg x
  unfold mlaf
  rw [← hx]
  cases fused
  · simp only [Bool.false_eq_true, if_false]
    have h1 := hr x
    have h2 := hr (a + ρ x)
    have h3 : |a + ρ x| ≤ B + |a - s| + |x| + (u * |x| + t) := by
      have : a + ρ x = a + x + (ρ x - x) := by ring
      rw [this]
      refine le_trans (abs_add_le _ _) ?_
      have := abs_add_le a x
      linarith
    have h4 : ρ (a + ρ x) - (s + x) = (ρ (a + ρ x) - (a + ρ x)) + ((a - s) + (ρ x - x)) := by ring
    rw [h4]
    refine le_trans (abs_add_le _ _) ?_
    have h5 := abs_add_le (a - s) (ρ x - x)
    have h6 : u * |a + ρ x| ≤ u * (B + |a - s| + |x| + (u * |x| + t)) := mul_le_mul_of_nonneg_left h3 hu.le
    linarith
  · simp only [if_true]
    have h2 := hr (a + x)
    have h3 : |a + x| ≤ B + |a - s| + |x| := le_trans (abs_add_le _ _) (by linarith)
    have h4 : ρ (a + x) - (s + x) = (ρ (a + x) - (a + x)) + (a - s) := by ring
    rw [h4]
    refine le_trans (abs_add_le _ _) ?_
    have h6 : u * |a + x| ≤ u * (B + |a - s| + |x|) := mul_le_mul_of_nonneg_left h3 hu.le
    have h7 : 0 ≤ (1 + u) * (u * |x| + t) := by positivity
    linarith

/-- Error of a left-to-right sum of `n` products, fused or not, with relative error `u` and absolute
error `t` per rounding. -/
theorem chain_err (fused : Bool) {ρ : ℚ → ℚ} {u t : ℚ} (hu : 0 < u) (ht : 0 < t)
    (hr : ∀ q, |ρ q - q| ≤ u * |q| + t) (p w : ℕ → ℚ) (n : ℕ) :
    |chain (mlaf ρ fused) 0 p w n - ∑ k ∈ range n, p k * w k| ≤
      ((1 + u) ^ (2 * n) - 1) * (∑ k ∈ range n, |p k * w k|) + 2 * n * (1 + u) ^ (2 * n) * t := by
  induction n with
  | zero => simp [chain]
  | succ n ih =>
    rw [sum_range_succ, sum_range_succ, chain]
    have hg' : (1 + u) ^ (2 * (n + 1)) = (1 + u) ^ 2 * (1 + u) ^ (2 * n) := by rw [← pow_add]; congr 1; ring
    rw [hg', Nat.cast_succ]
    exact le_trans (mlaf_step fused hu ht hr rfl (abs_sum_le_sum_abs _ _))
      (step_bound hu ht (one_le_pow₀ (by linarith)) (sum_nonneg fun _ _ => abs_nonneg _) (abs_nonneg _) (by positivity) ih)

/-- The bound of `chain_err`, for readability. -/
def floatErr (n : ℕ) (B : ℚ) : ℚ :=
  ((1 + 1 / 2 ^ 24) ^ (2 * n) - 1) * B + 2 * n * (1 + 1 / 2 ^ 24) ^ (2 * n) * (1 / 2 ^ 150)

theorem leftSum_err (fused : Bool) {p w : ℕ → ℚ} {n : ℕ} (hn : 1 ≤ n) :
    |leftSum (fun a b => F32.rnd (a * b)) (mlaf F32.rnd fused) p w n - ∑ k ∈ range n, p k * w k| ≤
      floatErr n (∑ k ∈ range n, |p k * w k|) := by
  have h := floatVal_leftSum (o := f32Ops F32.rnd fused) (mlaf_law rnd_rnd fused) (p := p) (w := w) hn
  have h2 : chain (mlaf F32.rnd fused) 0 p w n = leftSum (fun a b => F32.rnd (a * b)) (mlaf F32.rnd fused) p w n := by
    have hl : ∀ m, chain (mlaf F32.rnd fused) 0 p w (m + 1) =
        chain (mlaf F32.rnd fused) (F32.rnd (p 0 * w 0)) (fun k => p (k + 1)) (fun k => w (k + 1)) m := by
      intro m
      induction m with
      | zero => simp [chain, mlaf_law rnd_rnd fused]
      | succ m ih => rw [chain, ih]; rfl
    obtain ⟨m, rfl⟩ : ∃ m, n = m + 1 := ⟨n - 1, by omega⟩
    exact hl m
  rw [← h2]
  unfold floatErr
  exact chain_err fused (by positivity) (by positivity) (fun q => le_trans (F32.rnd_err_le q) (le_of_eq (by ring))) p w n

theorem ceil_err {d : ℕ} {v S e : ℚ} (h : |v - S| ≤ e) :
    clampQ (2 ^ d - 1) S - e ≤ ((ceilClamp d v : ℕ) : ℚ) ∧ ((ceilClamp d v : ℕ) : ℚ) ≤ clampQ (2 ^ d - 1) S + (1 + e) := by
  rw [ceilClamp_cast]
  have h1 := Int.le_ceil v
  have h2 := Int.ceil_lt_add_one v
  rw [abs_le] at h
  constructor
  · have := le_trans (clampQ_mono (2 ^ d - 1) (show S ≤ (⌈v⌉ : ℚ) + e by linarith)) (clampQ_add_le _ _ (by linarith))
    linarith
  · exact le_trans (clampQ_mono (2 ^ d - 1) (show (⌈v⌉ : ℚ) ≤ S + (1 + e) by linarith)) (clampQ_add_le _ _ (by linarith))

/-! ### C48 -/

/-- Quantisation error of the tables the scaler builds, for weights in `[-1, 1]`. -/
theorem table_quantise_err {L : Lib} {r : ResamplingFunction} {inn out : ℕ} {fw : FilterWeights ℚ} (h1 : 1 ≤ inn)
    (h2 : inn ≤ 2 ^ 23) (ha : r = .area → out ≤ 2 ^ 22) (e : tableOf L r inn out = some fw) :
    ValidTable fw inn out ∧ PlainShape fw out ∧
    ∀ i k, -1 ≤ fw.weight i k → fw.weight i k ≤ 1 →
      |((numericalApproximation F32.rnd fw).weight i k : ℚ) - fw.weight i k * 32768| ≤ 1 := by
  obtain ⟨fw', e', q1, q2⟩ := table_exists L r (out := out) h1 h2 ha
  rw [e] at e'
  obtain rfl := Option.some.inj e'
  refine ⟨q1, q2, fun i k hl hu => ?_⟩
  obtain ⟨fw', e', _, _, _, _, herr, hsat, _⟩ := C17_quantised L r inn out h1 h2 ha
  have e : generateWeights F32.rnd (filterOf F32.rnd L r) inn out = some fw := e
  rw [e] at e'
  obtain rfl := Option.some.inj e'
  by_cases h : fw.weight i k ≤ 32767 / 32768
  · refine le_trans ?_ (by norm_num : (1 / 2 : ℚ) ≤ 1)
    have := herr i k hl h
    norm_num at this ⊢
    exact this
  · rw [hsat i k (le_of_not_ge h), abs_le]
    push_cast
    constructor <;> linarith

/-- **C48, 8-bit images and u16 images of at most 12 bits** (`hi` is the largest sample). With a table of
the scaler whose weights lie in `[-1, 1]`, every sample of one horizontal pass is within
`1/2 + taps·hi/2^15` of the exact clamped weighted sum; every sample of one vertical pass is at most
`taps·hi/2^15` above and `1 + taps·hi/2^15` below it. -/
theorem C48_fixed {N hi : ℕ} {L : Lib} {r : ResamplingFunction} {src dst : Image ℕ} {fw : FilterWeights ℚ}
    (hN : 1 ≤ N ∧ N ≤ 4) (hs : src.validate N = .ok ()) (hd : dst.validate N = .ok ())
    (hsw : 0 < src.width) (hdw : 0 < dst.width) (hsh : 0 < src.height) (hM : ∀ v ∈ src.buffer, v ≤ hi)
    (hw : ∀ i k, -1 ≤ fw.weight i k ∧ fw.weight i k ≤ 1)
    (hsm : src.width ≤ 2 ^ 23 ∧ src.height ≤ 2 ^ 23) (ha : r = .area → dst.width ≤ 2 ^ 22 ∧ dst.height ≤ 2 ^ 22) :
    (src.height = dst.height → tableOf L r src.width dst.width = some fw →
      NoOverflow (numericalApproximation F32.rnd fw) dst.width hi →
      ∃ out, horizontalFixed N hi src dst (numericalApproximation F32.rnd fw) = some out ∧
        ∀ y x c, y < dst.height → x < dst.width → c < N →
          ∃ v, sample out.buffer (dst.strideOf N) N y x c = some v ∧
            |(v : ℚ) - clampQ hi (exactSum (fw.bound x).size (fun k => fw.weight x k)
              (fun k => pxD 0 src.buffer (src.strideOf N) N y ((fw.bound x).start + k) c))| ≤
                1 / 2 + (fw.bound x).size * hi / 2 ^ 15) ∧
    (src.width = dst.width → tableOf L r src.height dst.height = some fw →
      NoOverflow (numericalApproximation F32.rnd fw) dst.height hi →
      ∃ out, verticalFixed N hi src dst (numericalApproximation F32.rnd fw) = some out ∧
        ∀ y x c, y < dst.height → x < dst.width → c < N →
          ∃ v, sample out.buffer (dst.strideOf N) N y x c = some v ∧
            let exact := clampQ hi (exactSum (fw.bound y).size (fun k => fw.weight y k)
              (fun k => pxD 0 src.buffer (src.strideOf N) N ((fw.bound y).start + k) x c))
            exact - (1 + (fw.bound y).size * hi / 2 ^ 15) ≤ (v : ℚ) ∧
              (v : ℚ) ≤ exact + (fw.bound y).size * hi / 2 ^ 15) := by
  have hp : ∀ y x c, pxD 0 src.buffer (src.strideOf N) N y x c ≤ hi := by
    intro y x c
    simp only [pxD, sample]
    exact getD_le_of_forall hM _
  rw [show (2 : ℚ) ^ 15 = 32768 by norm_num]
  constructor
  · intro hh e hO
    obtain ⟨T, Sh, q⟩ := table_quantise_err hsw hsm.1 (fun h => (ha h).1) e
    obtain ⟨out, o1, _, _, o4⟩ := C18_horizontal_pass (hi := hi) hN hs hd hh hsw hdw (Sh.q_valid (ρ := F32.rnd) T) hM hO
    refine ⟨out, o1, fun y x c hy hx hc => ⟨_, o4 y x c hy hx hc, ?_⟩⟩
    exact fixedRound_err (fixed_sum_err (fun k _ => q x k (hw x k).1 (hw x k).2) (fun k _ => hp _ _ _))
  · intro hww e hO
    obtain ⟨T, Sh, q⟩ := table_quantise_err hsh hsm.2 (fun h => (ha h).2) e
    obtain ⟨out, o1, _, _, o4⟩ := C19_vertical_pass (hi := hi) hN.1 hs hd hww hdw (Sh.q_valid (ρ := F32.rnd) T) hM hO
    refine ⟨out, o1, fun y x c hy hx hc => ⟨_, o4 y x c hy hx hc, ?_⟩⟩
    exact fixedFloor_err (fixed_sum_err (fun k _ => q y k (hw y k).1 (hw y k).2) (fun k _ => hp _ _ _))

theorem exactSum_comm (n : ℕ) (w : ℕ → ℚ) (p : ℕ → ℕ) : exactSum n w p = ∑ k ∈ range n, (p k : ℚ) * w k :=
  sum_congr rfl fun _ _ => by ring

/-- **C48, u16 images deeper than 12 bits** (`d` bits), both passes and both builds of `mlaf`: every sample
is at most `E` below and `1 + E` above the exact clamped weighted sum, where `E` is the binary32
summation error `((1 + 2^-24)^(2·taps) - 1)·Σ|wₖ pₖ|` (plus an underflow term). -/
theorem C48_float (fused : Bool) {N d : ℕ} {src dst : Image ℕ} {fw : FilterWeights ℚ}
    (hN : 1 ≤ N ∧ N ≤ 4) (hs : src.validate N = .ok ()) (hd : dst.validate N = .ok ())
    (hsw : 0 < src.width) (hdw : 0 < dst.width) (hbd : dst.bitDepth = d) (h12 : 12 < d) :
    (src.height = dst.height → ValidTable fw src.width dst.width →
      ∃ out, (formatU16 fused N).horizontal src dst fw = some out ∧
        ∀ y x c, y < dst.height → x < dst.width → c < N →
          ∃ v, sample out.buffer (dst.strideOf N) N y x c = some v ∧
            let p := fun k => pxD 0 src.buffer (src.strideOf N) N y ((fw.bound x).start + k) c
            let exact := clampQ (2 ^ d - 1) (exactSum (fw.bound x).size (fun k => fw.weight x k) p)
            let E := floatErr (fw.bound x).size (∑ k ∈ range (fw.bound x).size, |(p k : ℚ) * fw.weight x k|)
            exact - E ≤ (v : ℚ) ∧ (v : ℚ) ≤ exact + (1 + E)) ∧
    (src.width = dst.width → ValidTable fw src.height dst.height →
      ∃ out, (formatU16 fused N).vertical src dst fw = some out ∧
        ∀ y x c, y < dst.height → x < dst.width → c < N →
          ∃ v, sample out.buffer (dst.strideOf N) N y x c = some v ∧
            let p := fun k => pxD 0 src.buffer (src.strideOf N) N ((fw.bound y).start + k) x c
            let exact := clampQ (2 ^ d - 1) (exactSum (fw.bound y).size (fun k => fw.weight y k) p)
            let E := floatErr (fw.bound y).size (∑ k ∈ range (fw.bound y).size, |(p k : ℚ) * fw.weight y k|)
            exact - E ≤ (v : ℚ) ∧ (v : ℚ) ≤ exact + (1 + E)) := by
  constructor
  · intro hh hT
    obtain ⟨out, o1, _, _, o4⟩ := C45_horizontal (u16Ops F32.rnd fused d) 0 (mlaf_law rnd_rnd fused) hN hs hd hh hsw hdw hT
    refine ⟨out, by simp only [formatU16, hbd, if_pos h12]; exact o1, fun y x c hy hx hc => ⟨_, o4 y x c hy hx hc, ?_⟩⟩
    intro p exact E
    simp only [u16Ops, toMixedU16_eq]
    refine ceil_err ?_
    rw [exactSum_comm]
    exact leftSum_err fused (hT.size_pos x hx)
  · intro hw hT
    obtain ⟨out, o1, _, _, o4⟩ := C45_vertical (u16Ops F32.rnd fused d) 0 (mlaf_law rnd_rnd fused) hN.1 hs hd hw hdw hT
    refine ⟨out, by simp only [formatU16, hbd, if_pos h12]; exact o1, fun y x c hy hx hc => ⟨_, o4 y x c hy hx hc, ?_⟩⟩
    intro p exact E
    simp only [u16Ops, toMixedU16_eq]
    refine ceil_err ?_
    rw [exactSum_comm]
    exact leftSum_err fused (hT.size_pos y hy)

/-- What the bound means: with at most 60 taps and absolute sum of products at most twice the full 16-bit
range, `E < 1`, so a deep pass is within 2 of the exact value. -/
theorem C48_float_small {n : ℕ} {B : ℚ} (hn : n ≤ 60) (hB : B ≤ 2 * 65535) : floatErr n B < 1 := by
  have h1 : (1 + 1 / 2 ^ 24 : ℚ) ^ (2 * n) ≤ (1 + 1 / 2 ^ 24) ^ 120 :=
    pow_le_pow_right₀ (by norm_num) (by omega)
  have h2 : (1 + 1 / 2 ^ 24 : ℚ) ^ 120 ≤ 1 + 121 / 2 ^ 24 := by norm_num
  have h3 : (1 : ℚ) ≤ (1 + 1 / 2 ^ 24) ^ (2 * n) := one_le_pow₀ (by norm_num)
  have h4 : (n : ℚ) ≤ 60 := by exact_mod_cast hn
  have h5 : (0 : ℚ) ≤ n := by positivity
  unfold floatErr
  set g := (1 + 1 / 2 ^ 24 : ℚ) ^ (2 * n)
  have h6 : (g - 1) * B ≤ (g - 1) * (2 * 65535) := mul_le_mul_of_nonneg_left hB (by linarith)
  have h7 : 2 * (n : ℚ) * g ≤ 2 * 60 * 2 := by nlinarith
  have h8 : 2 * (n : ℚ) * g * (1 / 2 ^ 150) ≤ 2 * 60 * 2 * (1 / 2 ^ 150) := mul_le_mul_of_nonneg_right h7 (by norm_num)
  have h9 : (2 * 60 * 2 * (1 / 2 ^ 150) : ℚ) ≤ 1 / 100 := by norm_num
  linarith

/-- The bounds on a concrete pass: three samples averaged with weights 1/4, 1/2, 1/4 into 14 bits. -/
def Demo.accTab : FilterWeights ℚ :=
  { weights := [1/4, 1/2, 1/4], bounds := [⟨0, 3⟩], kernelSize := 3, alignedSize := 3, distinctElements := 1 }
def Demo.accSrc : Image ℕ := { buffer := [1001, 16000, 3], channels := 1, width := 3, height := 1, stride := 3, bitDepth := 14 }
def Demo.accDst : Image ℕ := { buffer := [0], channels := 1, width := 1, height := 1, stride := 1, bitDepth := 14 }

example : ∃ out, (formatU16 true 1).horizontal Demo.accSrc Demo.accDst Demo.accTab = some out ∧
    ∃ v : ℕ, sample out.buffer 1 1 0 0 0 = some v ∧ (v : ℚ) ≤ 8251 + 2 := by
  obtain ⟨out, o1, o2⟩ := (C48_float true (N := 1) (d := 14) (src := Demo.accSrc) (dst := Demo.accDst) (fw := Demo.accTab)
    (by decide) (by decide) (by decide) (by decide) (by decide) rfl (by decide)).1 rfl
    (by refine ⟨by decide, by decide, by decide, ?_, ?_, ?_⟩ <;> decide)
  obtain ⟨v, v1, _, v2⟩ := o2 0 0 0 (by decide) (by decide) (by decide)
  refine ⟨out, o1, v, v1, le_trans v2 ?_⟩
  have h1 := C48_float_small (n := 3) (B := 8251) (by norm_num) (by norm_num)
  have e1 : (Demo.accTab.bound 0).size = 3 := rfl
  rw [e1]
  have e2 : (∑ k ∈ range 3, |((pxD 0 Demo.accSrc.buffer (Demo.accSrc.strideOf 1) 1 0 ((Demo.accTab.bound 0).start + k) 0 : ℕ) : ℚ) *
      Demo.accTab.weight 0 k|) = 8251 := by decide +kernel
  have e3 : exactSum 3 (fun k => Demo.accTab.weight 0 k) (fun k => pxD 0 Demo.accSrc.buffer (Demo.accSrc.strideOf 1) 1 0
      ((Demo.accTab.bound 0).start + k) 0) = 8251 := by decide +kernel
  rw [e2, e3]
  have e4 : clampQ (2 ^ 14 - 1) 8251 = 8251 := by norm_num [clampQ]
  rw [e4]
  linarith

end PicScale
