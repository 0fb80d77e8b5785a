import Verif.Lemmas.X86F32P
import Verif.Lemmas.F32
import Mathlib.Tactic.LinearCombination
import Mathlib.Algebra.BigOperators.Ring.List

/-! Rounding error of sums of products, for any order of summation. -/

namespace PicScale

open Spec Finset

/-- Unit roundoff of binary32. -/
def uR : ℚ := 1 / 2 ^ 24
/-- Half the smallest subnormal. -/
def etaR : ℚ := 1 / 2 ^ 150

theorem uR_pos : 0 < uR := by unfold uR; norm_num
theorem etaR_pos : 0 < etaR := by unfold etaR; positivity

/-- `x` approximates `s` after `k` levels and `d` roundings; `A` bounds the size of the terms. -/
structure Near (k d : ℕ) (x s A : ℚ) : Prop where
  err : |x - s| ≤ ((1 + uR) ^ k - 1) * A + d * (1 + uR) ^ k * etaR
  le : |s| ≤ A

theorem one_le_pow (k : ℕ) : 1 ≤ (1 + uR) ^ k := one_le_pow₀ (by have := uR_pos; linarith)

theorem pow_le_pow {k l : ℕ} (h : k ≤ l) : (1 + uR) ^ k ≤ (1 + uR) ^ l :=
  pow_le_pow_right₀ (by have := uR_pos; linarith) h

theorem Near.mono {k l d e : ℕ} {x s A : ℚ} (h : Near k d x s A) (hk : k ≤ l) (hd : d ≤ e) : Near l e x s A := by
  refine ⟨le_trans h.err ?_, h.le⟩
  have hA : 0 ≤ A := le_trans (abs_nonneg _) h.le
  have h1 := pow_le_pow hk
  have h2 : (d : ℚ) ≤ e := by exact_mod_cast hd
  have h3 := one_le_pow k
  have h4 := etaR_pos
  have h5 : (d : ℚ) * (1 + uR) ^ k ≤ e * (1 + uR) ^ l := mul_le_mul h2 h1 (by linarith) (by positivity)
  have h6 : ((1 + uR) ^ k - 1) * A ≤ ((1 + uR) ^ l - 1) * A := mul_le_mul_of_nonneg_right (by linarith) hA
  have h7 := mul_le_mul_of_nonneg_right h5 h4.le
  linarith

variable {ρ : ℚ → ℚ}

/-- Rounding a value that is near. -/
theorem Near.round (hρ : ∀ q, |ρ q - q| ≤ uR * |q| + etaR) {k d : ℕ} {x s A : ℚ} (h : Near k d x s A) :
    Near (k + 1) (d + 1) (ρ x) s A := by
  refine ⟨?_, h.le⟩
  have h1 := hρ x
  have h2 : |ρ x - s| ≤ |ρ x - x| + |x - s| := by
    have := abs_add_le (ρ x - x) (x - s)
    rwa [show ρ x - x + (x - s) = ρ x - s by ring] at this
  have h3 : |x| ≤ |x - s| + |s| := by
    have := abs_add_le (x - s) s
    rwa [sub_add_cancel] at this
  have hu := uR_pos
  have he := etaR_pos
  have hp := one_le_pow k
  have h4 : uR * |x| ≤ uR * (|x - s| + A) := mul_le_mul_of_nonneg_left (by linarith [h.le]) hu.le
  have h5 : (1 + uR) * |x - s| ≤ (1 + uR) * (((1 + uR) ^ k - 1) * A + d * (1 + uR) ^ k * etaR) :=
    mul_le_mul_of_nonneg_left h.err (by linarith)
  have h6 : etaR ≤ (1 + uR) ^ (k + 1) * etaR := by
    have := one_le_pow (k + 1)
    nlinarith
  rw [pow_succ] at *
  push_cast
  nlinarith

theorem Near.add' {k d e : ℕ} {x s A y t B : ℚ} (h : Near k d x s A) (g : Near k e y t B) :
    Near k (d + e) (x + y) (s + t) (A + B) := by
  refine ⟨?_, ?_⟩
  · have := abs_add_le (x - s) (y - t)
    rw [show x - s + (y - t) = x + y - (s + t) by ring] at this
    refine le_trans this ?_
    refine le_trans (add_le_add h.err g.err) (le_of_eq ?_)
    push_cast
    ring
  · exact le_trans (abs_add_le s t) (add_le_add h.le g.le)

theorem Near.exact (s : ℚ) : Near 0 0 s s |s| := ⟨by simp, le_rfl⟩

/-- One multiply-add, fused or not, in either order of the sum. -/
theorem Near.mulAdd (hρ : ∀ q, |ρ q - q| ≤ uR * |q| + etaR) (fma : Bool) {k d : ℕ} {x s A : ℚ} (h : Near (k + 1) d x s A) (a b : ℚ) :
    Near (k + 2) (d + 2) (if fma then ρ (a * b + x) else ρ (ρ (a * b) + x)) (s + a * b) (A + |a| * |b|) := by
  have e : Near 0 0 (a * b) (a * b) (|a| * |b|) := by rw [← abs_mul]; exact Near.exact _
  cases fma
  · have := (Near.add' h ((e.round hρ).mono (l := k + 1) (by omega) le_rfl)).round hρ
    rw [add_comm x] at this
    exact this
  · have := (Near.add' h (e.mono (l := k + 1) (by omega) le_rfl)).round hρ
    rw [add_comm x] at this
    exact this.mono (by omega) (by omega)

/-- Exact value of a list of taps. -/
def tapExact (p w : ℕ → ℚ) (L : List Tap) : ℚ := (L.map fun t => t.1.elim 0 p * t.2.elim 0 w).sum

theorem tapExact_append (p w : ℕ → ℚ) (L M : List Tap) : tapExact p w (L ++ M) = tapExact p w L + tapExact p w M := by
  simp [tapExact]

theorem elim_abs (p : ℕ → ℚ) (t : Option ℕ) : |t.elim 0 p| = t.elim 0 fun k => |p k| := by
  cases t <;> simp

theorem tapSum_near (hρ : ∀ q, |ρ q - q| ≤ uR * |q| + etaR) (fma : Bool) (p w : ℕ → ℚ) (L : List Tap) :
    Near (L.length + 1) (2 * L.length)
      (tapSum (fun acc a b => if fma then ρ (a * b + acc) else ρ (ρ (a * b) + acc)) 0 p w L) (tapExact p w L)
      (tapExact (fun k => |p k|) (fun k => |w k|) L) := by
  induction L using List.reverseRecOn with
  | nil => exact ⟨by simp [tapSum, tapExact], by simp [tapExact]⟩
  | append_singleton L t ih =>
    rw [tapSum_snoc, tapExact_append, tapExact_append, List.length_append, List.length_singleton]
    have := Near.mulAdd hρ fma ih (t.1.elim 0 p) (t.2.elim 0 w)
    rw [elim_abs, elim_abs] at this
    have e1 : ∀ (p w : ℕ → ℚ), tapExact p w [t] = t.1.elim 0 p * t.2.elim 0 w := fun p w => by simp [tapExact]
    rw [e1, e1, Nat.mul_add]
    exact this

theorem chain_eq_tapSum {A : Type} (mla : A → A → A → A) (z : A) (p w : ℕ → A) (n : ℕ) :
    chain mla z p w n = tapSum mla z p w ((List.range n).map use) := by
  induction n with
  | zero => rfl
  | succ n ih =>
    rw [List.range_succ, List.map_append, List.map_singleton, tapSum_snoc, ← ih]
    rfl

theorem sum_map_range (f : ℕ → ℚ) (n : ℕ) : ((List.range n).map f).sum = ∑ k ∈ range n, f k := by
  induction n with
  | zero => rfl
  | succ n ih => rw [List.range_succ, List.map_append, List.sum_append, ih, Finset.sum_range_succ]; simp

theorem tapExact_useG (p w : ℕ → ℚ) (l : List ℕ) (g : ℕ → ℕ) :
    tapExact p w (l.map fun i => use (g i)) = (l.map fun i => p (g i) * w (g i)).sum := by
  simp [tapExact, use, Function.comp_def]

theorem tapExact_use (p w : ℕ → ℚ) (l : List ℕ) : tapExact p w (l.map use) = (l.map fun k => p k * w k).sum :=
  tapExact_useG p w l fun i => i

theorem tapExact_range (p w : ℕ → ℚ) (n : ℕ) : tapExact p w ((List.range n).map use) = ∑ k ∈ range n, p k * w k := by
  rw [tapExact_use, sum_map_range]

/-! ### every tap once -/

theorem sum_range'_succ (f : ℕ → ℚ) (s n : ℕ) : ((List.range' s (n + 1)).map f).sum = ((List.range' s n).map f).sum + f (s + n) := by
  rw [List.range'_1_concat, List.map_append, List.sum_append]; simp

theorem sum_range_range' (f : ℕ → ℚ) {m n : ℕ} (h : m ≤ n) :
    ∑ k ∈ range n, f k = ∑ k ∈ range m, f k + ((List.range' m (n - m)).map f).sum := by
  obtain ⟨d, rfl⟩ := Nat.exists_eq_add_of_le h
  rw [Nat.add_sub_cancel_left]
  clear h
  induction d with
  | zero => simp
  | succ d ih => rw [sum_range'_succ, ← add_assoc, ← add_assoc, ← ih, Finset.sum_range_succ]

theorem tapExact_zeros (p w : ℕ → ℚ) (l : List ℕ) : tapExact p w (l.map fun k => (none, some k)) = 0 := by
  simp [tapExact, Function.comp_def]

theorem sum_pairs (f : ℕ → ℚ) (m : ℕ) :
    ((List.range m).map fun i => f (2 * i)).sum + ((List.range m).map fun i => f (2 * i + 1)).sum = ∑ k ∈ range (2 * m), f k := by
  rw [sum_map_range, sum_map_range]
  induction m with
  | zero => simp
  | succ m ih =>
    rw [Finset.sum_range_succ, Finset.sum_range_succ, show 2 * (m + 1) = 2 * m + 1 + 1 by ring, Finset.sum_range_succ,
      Finset.sum_range_succ, ← ih]
    ring

theorem pairTaps_exact (p w : ℕ → ℚ) {n : ℕ} (hn : 1 ≤ n) :
    tapExact p w (lowTaps n) + tapExact p w (highTaps n) = ∑ k ∈ range n, p k * w k := by
  unfold lowTaps highTaps
  rw [tapExact_append, tapExact_append, tapExact_zeros, tapExact_use, tapExact_useG _ _ _ fun i => 2 * i,
    tapExact_useG _ _ _ fun i => 2 * i + 1]
  have := sum_pairs (fun k => p k * w k) ((n - 1) / 2)
  rw [sum_range_range' (fun k => p k * w k) (show 2 * ((n - 1) / 2) ≤ n by omega), ← this]
  unfold lastTaps
  ring

theorem sum_quads (f : ℕ → ℚ) (m : ℕ) :
    ((List.range m).map fun i => f (4 * i)).sum + ((List.range m).map fun i => f (4 * i + 1)).sum +
      (((List.range m).map fun i => f (4 * i + 2)).sum + ((List.range m).map fun i => f (4 * i + 3)).sum) =
      ∑ k ∈ range (4 * m), f k := by
  simp only [sum_map_range]
  induction m with
  | zero => simp
  | succ m ih =>
    simp only [Finset.sum_range_succ]
    rw [show 4 * (m + 1) = 4 * m + 1 + 1 + 1 + 1 by ring]
    simp only [Finset.sum_range_succ]
    rw [← ih]
    ring_nf

theorem planeBlocks_single {n : ℕ} (hn : n ≤ 16) : planeBlocks true n = planeBlocks false n := by
  unfold planeBlocks
  have : (n - 9) / 8 = 0 := by omega
  simp [this, List.range_eq_range']

theorem planeTail_exact (p w : ℕ → ℚ) {n : ℕ} (hn : 1 ≤ n) :
    tapExact p w (planeTail n 0) + tapExact p w (planeTail n 1) + (tapExact p w (planeTail n 2) + tapExact p w (planeTail n 3)) =
      ((List.range' (4 * ((n - 1) / 4)) (n - 4 * ((n - 1) / 4))).map fun k => p k * w k).sum := by
  unfold planeTail
  dsimp only
  generalize hj : 4 * ((n - 1) / 4) = j
  simp only [tapExact_append, if_true, one_ne_zero, if_false, tapExact_zeros, OfNat.ofNat_ne_zero]
  by_cases h : j + 2 < n
  · simp only [if_pos h]
    obtain ⟨d, hd⟩ : ∃ d, n - j = 2 + d := ⟨n - j - 2, by omega⟩
    have e : ((List.range' j (2 + d)).map fun k => p k * w k).sum =
        p j * w j + p (j + 1) * w (j + 1) + ((List.range' (j + 2) d).map fun k => p k * w k).sum := by
      rw [← List.range'_append_1, List.map_append, List.sum_append]
      simp [List.range']
    rw [hd, e, show n - (j + 2) = d by omega]
    have t1 : ∀ t : Tap, tapExact p w [t] = t.1.elim 0 p * t.2.elim 0 w := fun t => by simp [tapExact]
    rw [show (fun k => use k) = use from rfl, tapExact_use]
    simp only [t1]
    simp [use]
    ring
  · simp only [if_neg h]
    rw [show (fun k => use k) = use from rfl, tapExact_use]
    simp [tapExact]

/-- Each tap of the window once, whatever the lane. -/
theorem planeTaps_exact (p w : ℕ → ℚ) {single : Bool} {n : ℕ} (hn : 1 ≤ n) (hs : single = true → n ≤ 16) :
    tapExact p w (planeTaps single n 0) + tapExact p w (planeTaps single n 1) +
      (tapExact p w (planeTaps single n 2) + tapExact p w (planeTaps single n 3)) = ∑ k ∈ range n, p k * w k := by
  have hb : planeBlocks single n = List.range ((n - 1) / 4) := by
    cases single
    · rfl
    · rw [planeBlocks_single (hs rfl)]; rfl
  unfold planeTaps
  rw [hb]
  simp only [tapExact_append]
  have h1 := sum_quads (fun k => p k * w k) ((n - 1) / 4)
  have h2 := planeTail_exact p w hn
  rw [sum_range_range' (fun k => p k * w k) (show 4 * ((n - 1) / 4) ≤ n by omega), ← h1, ← h2,
    tapExact_useG _ _ _ fun q => 4 * q + 0, tapExact_useG _ _ _ fun q => 4 * q + 1, tapExact_useG _ _ _ fun q => 4 * q + 2,
    tapExact_useG _ _ _ fun q => 4 * q + 3]
  simp only [Nat.add_zero]
  ring

theorem planeTaps_length {single : Bool} {n : ℕ} (hn : 1 ≤ n) (hs : single = true → n ≤ 16) (i : ℕ) :
    (planeTaps single n i).length ≤ n := by
  have hb : planeBlocks single n = List.range ((n - 1) / 4) := by
    cases single
    · rfl
    · rw [planeBlocks_single (hs rfl)]; rfl
  unfold planeTaps planeTail
  rw [hb]
  dsimp only
  simp only [List.length_append, List.length_map, List.length_range, List.length_range']
  split_ifs <;> simp only [List.length_singleton, List.length_nil] <;> omega

theorem lowTaps_length {n : ℕ} (hn : 1 ≤ n) : (lowTaps n).length ≤ n := by
  unfold lowTaps lastTaps
  simp only [List.length_append, List.length_map, List.length_range, List.length_range']
  omega

theorem highTaps_length {n : ℕ} (hn : 1 ≤ n) : (highTaps n).length ≤ n := by
  unfold highTaps lastTaps
  simp only [List.length_append, List.length_map, List.length_range, List.length_range']
  omega

/-! ### the three sums -/

section sums

/-- The multiply-add of a lane. -/
abbrev mlaOf (ρ : ℚ → ℚ) (fma : Bool) : ℚ → ℚ → ℚ → ℚ := fun acc a b => if fma then ρ (a * b + acc) else ρ (ρ (a * b) + acc)

variable (hρ : ∀ q, |ρ q - q| ≤ uR * |q| + etaR)
include hρ

theorem chain_near (fma : Bool) (p w : ℕ → ℚ) (n : ℕ) :
    Near (n + 3) (8 * n + 3) (chain (mlaOf ρ fma) 0 p w n) (∑ k ∈ range n, p k * w k) (∑ k ∈ range n, |p k| * |w k|) := by
  rw [chain_eq_tapSum]
  have := tapSum_near hρ fma p w ((List.range n).map use)
  rw [tapExact_range, tapExact_range, List.length_map, List.length_range] at this
  exact this.mono (by omega) (by omega)

theorem pairSum_near (fma : Bool) (p w : ℕ → ℚ) {n : ℕ} (hn : 1 ≤ n) :
    Near (n + 3) (8 * n + 3) (pairSum (fun a b => ρ (a + b)) (mlaOf ρ fma) 0 p w n) (∑ k ∈ range n, p k * w k)
      (∑ k ∈ range n, |p k| * |w k|) := by
  have h1 := (tapSum_near hρ fma p w (lowTaps n)).mono (l := n + 1) (e := 2 * n) (by have := lowTaps_length hn; omega)
    (by have := lowTaps_length hn; omega)
  have h2 := (tapSum_near hρ fma p w (highTaps n)).mono (l := n + 1) (e := 2 * n) (by have := highTaps_length hn; omega)
    (by have := highTaps_length hn; omega)
  have := (h1.add' h2).round hρ
  rw [pairTaps_exact _ _ hn, pairTaps_exact _ _ hn] at this
  exact this.mono (by omega) (by omega)

theorem quadSum_near (fma single : Bool) (p w : ℕ → ℚ) {n : ℕ} (hn : 1 ≤ n) (hs : single = true → n ≤ 16) :
    Near (n + 3) (8 * n + 3) (quadSum (fun a b => ρ (a + b)) (mlaOf ρ fma) 0 single p w n) (∑ k ∈ range n, p k * w k)
      (∑ k ∈ range n, |p k| * |w k|) := by
  have h := fun i => (tapSum_near hρ fma p w (planeTaps single n i)).mono (l := n + 1) (e := 2 * n)
    (by have := planeTaps_length hn hs i; omega) (by have := planeTaps_length hn hs i; omega)
  have := ((((h 0).add' (h 1)).round hρ).add' (((h 2).add' (h 3)).round hρ)).round hρ
  rw [planeTaps_exact _ _ hn hs, planeTaps_exact _ _ hn hs] at this
  exact this.mono (by omega) (by omega)

end sums

end PicScale
