import Mathlib.Tactic.GCongr
import Mathlib.Algebra.BigOperators.Ring.Finset
import Verif.Lemmas.WeightCentre

/-!
Binary32 error analysis of signed weights: windows of kernels with negative lobes.
-/

namespace PicScale

open F32 Finset

/-- What the error analysis needs from a filter with negative lobes: no window, support 2, no smoothing, kernel
values that are binary32 numbers, hardly negative within the first unit, at least `-1/12` beyond it, at most two, and
at least `9/20` near the centre. -/
structure Ringing (f : Filter) : Prop where
  window : f.window = none
  support : f.minKernelSize = 2
  ewa : f.isEwa = false
  rep : ∀ x, 0 ≤ x → Rep (f.kernel x)
  inner : ∀ x, 0 ≤ x → x ≤ 1 → -(1 / 2 ^ 18) ≤ f.kernel x
  outer : ∀ x, 0 ≤ x → -(1 / 12) ≤ f.kernel x
  le_two : ∀ x, 0 ≤ x → f.kernel x ≤ 2
  centre : ∀ x, 0 ≤ x → x ≤ 1 / 2 → 9 / 20 ≤ f.kernel x

/-- Rounding a number of size at most `B`. -/
theorem rnd_within {q B : ℚ} (h : |q| ≤ B) : |F32.rnd q - q| ≤ B / 2 ^ 24 + 1 / 2 ^ 150 :=
  le_trans (rnd_err_le q) (by gcongr)

/-- A tap that is neither the first nor the last of its window lies within the first unit of the kernel. -/
theorem inner_tap {f : Filter} (hw : f.window = none) (hm : f.minKernelSize = 2) {inn out i k : ℕ} (h1 : 1 ≤ inn)
    (h2 : inn ≤ 2 ^ 15) (ho : 1 ≤ out) (hs : wStart F32.rnd f inn out i + 1 ≤ k) (he : k + 2 ≤ wEnd F32.rnd f inn out i)
    (hk : k ≤ inn) :
    ∃ x, 0 ≤ x ∧ x ≤ 1 ∧ rawWeight F32.rnd f inn out i k = f.kernel x := by
  have hcut := wCutoff_one_le (ρ := F32.rnd) f inn out
  have hinnq : (inn : ℚ) ≤ 2 ^ 15 := by exact_mod_cast h2
  have h1q : (1 : ℚ) ≤ inn := by exact_mod_cast h1
  have hcut2 : wCutoff F32.rnd f inn out ≤ 2 ^ 15 := by
    unfold wCutoff; split_ifs
    · refine max_le ?_ (by norm_num)
      unfold wScale
      rw [RoundOK.rnd.nat (by omega : inn ≤ 2 ^ 24)]
      have ho' : 1 ≤ F32.rnd (out : ℚ) := RoundOK.rnd.one_le (by exact_mod_cast ho)
      have : (inn : ℚ) / F32.rnd out ≤ ((2 ^ 15 : ℕ) : ℚ) := by
        rw [div_le_iff₀ (by linarith)]
        push_cast
        nlinarith
      have := RoundOK.rnd.mono this
      rw [RoundOK.rnd.nat (n := 2 ^ 15) (by norm_num)] at this
      push_cast at this; exact this
    · norm_num
  obtain ⟨k1, k2⟩ := wKernelSize_range RoundOK.rnd f (inn := inn) (out := out) (by omega) ho hm
  have hks : (wKernelSize F32.rnd f inn out : ℚ) ≤ 2 * wCutoff F32.rnd f inn out + 1 / 2 + 1 / 100 := by
    have e : (wKernelSize F32.rnd f inn out : ℚ) = (F32.round (F32.rnd (2 * wCutoff F32.rnd f inn out)) : ℚ) := by
      have hk0 : 1 ≤ wKernelSize F32.rnd f inn out := by omega
      unfold wKernelSize at hk0 ⊢
      rw [hm] at hk0 ⊢
      unfold F32.toUsize at hk0 ⊢
      have : (0 : ℤ) ≤ F32.round (F32.rnd (2 * wCutoff F32.rnd f inn out)) := by omega
      have h3 := Int.toNat_of_nonneg this
      exact_mod_cast h3
    rw [e]
    have a := F32.round_err (F32.rnd (2 * wCutoff F32.rnd f inn out))
    have b := rnd_within (show |2 * wCutoff F32.rnd f inn out| ≤ 2 ^ 16 by rw [abs_of_nonneg (by linarith)]; linarith)
    have c : (2 : ℚ) ^ 16 / 2 ^ 24 + 1 / 2 ^ 150 ≤ 1 / 100 := by norm_num
    rw [abs_le] at a b
    linarith [a.2, b.2]
  set cut := wCutoff F32.rnd f inn out with hcutd
  set c := wCenter F32.rnd inn out i with hcd
  set ks := wKernelSize F32.rnd f inn out with hksd
  have hc0 : 0 ≤ c := wCenter_nonneg RoundOK.rnd i
  have hcn : c ≤ inn := by
    rw [hcd]; unfold wCenter; rw [RoundOK.rnd.nat (by omega : inn ≤ 2 ^ 24)]; exact min_le_right _ _
  have hr2 : wRadius F32.rnd f inn out = (ks : ℚ) / 2 := by
    unfold wRadius
    rw [← hksd, RoundOK.rnd.nat k2]
    have := RoundOK.rnd.half (ks : ℤ) (by rw [abs_of_nonneg (by omega)]; exact_mod_cast k2)
    push_cast at this; exact this
  have hks0 : (2 : ℚ) ≤ ks := by exact_mod_cast k1
  have lo : c - ks / 2 - 1 / 100 < k := by
    have e1 : ⌊F32.rnd (c - ks / 2)⌋ ≤ (wStart F32.rnd f inn out i : ℤ) := by
      unfold wStart F32.toUsize
      rw [← hcd, hr2]
      omega
    have e2 := Int.lt_floor_add_one (F32.rnd (c - ks / 2))
    have e3 : ((⌊F32.rnd (c - ks / 2)⌋ + 1 : ℤ) : ℚ) ≤ k := by exact_mod_cast (by omega : ⌊F32.rnd (c - ks / 2)⌋ + 1 ≤ (k : ℤ))
    push_cast at e3
    have b := rnd_within (show |c - ks / 2| ≤ 2 ^ 16 by rw [abs_le]; constructor <;> linarith)
    have d : (2 : ℚ) ^ 16 / 2 ^ 24 + 1 / 2 ^ 150 ≤ 1 / 100 := by norm_num
    rw [abs_le] at b
    linarith [b.1]
  have hi : (k : ℚ) < c + ks / 2 - 1 + 1 / 100 := by
    have e1 : (wEnd F32.rnd f inn out i : ℤ) ≤ ⌈F32.rnd (c + ks / 2)⌉ := by
      unfold wEnd F32.toUsize
      rw [← hcd, hr2]
      have : ⌊min (min (⌈F32.rnd (c + ks / 2)⌉ : ℚ) (F32.rnd (F32.rnd (wStart F32.rnd f inn out i) + F32.rnd (wKernelSize F32.rnd f inn out))))
          (F32.rnd inn)⌋ ≤ ⌈F32.rnd (c + ks / 2)⌉ := by
        have := Int.floor_mono (le_trans (min_le_left _ (F32.rnd inn)) (min_le_left (⌈F32.rnd (c + ks / 2)⌉ : ℚ)
          (F32.rnd (F32.rnd (wStart F32.rnd f inn out i) + F32.rnd (wKernelSize F32.rnd f inn out)))))
        rwa [Int.floor_intCast] at this
      have h0 : 0 ≤ ⌈F32.rnd (c + ks / 2)⌉ := Int.ceil_nonneg (RoundOK.rnd.nonneg (by linarith))
      omega
    have e2 := Int.ceil_lt_add_one (F32.rnd (c + ks / 2))
    have e3 : ((k + 2 : ℤ) : ℚ) ≤ (⌈F32.rnd (c + ks / 2)⌉ : ℚ) := by
      exact_mod_cast (by omega : (k + 2 : ℤ) ≤ ⌈F32.rnd (c + ks / 2)⌉)
    push_cast at e3
    have b := rnd_within (show |c + ks / 2| ≤ 2 ^ 17 by rw [abs_le]; constructor <;> linarith)
    have d : (2 : ℚ) ^ 17 / 2 ^ 24 + 1 / 2 ^ 150 ≤ 1 / 100 := by norm_num
    rw [abs_le] at b
    linarith [b.2]
  have hkq : (k : ℚ) ≤ 2 ^ 15 := by
    have : (k : ℚ) ≤ inn := by exact_mod_cast hk
    linarith
  have hkq0 : (0 : ℚ) ≤ k := by positivity
  have b := rnd_within (show |c - 1 / 2| ≤ 2 ^ 15 by rw [abs_le]; constructor <;> linarith)
  have d : (2 : ℚ) ^ 15 / 2 ^ 24 + 1 / 2 ^ 150 ≤ 1 / 100 := by norm_num
  rw [abs_le] at b
  have hd : |(k : ℚ) - F32.rnd (c - 1 / 2)| ≤ cut - 1 / 5 := by
    rw [abs_le]; constructor <;> linarith [b.1, b.2]
  have b2 := rnd_within (show |(k : ℚ) - F32.rnd (c - 1 / 2)| ≤ 2 ^ 15 by linarith)
  have hdx : |F32.rnd ((k : ℚ) - F32.rnd (c - 1 / 2))| ≤ cut - 1 / 10 := by
    rw [abs_le] at b2 hd ⊢
    constructor <;> linarith [b2.1, b2.2, hd.1, hd.2]
  have f0 : 0 ≤ wFilterScale F32.rnd f inn out := RoundOK.rnd.nonneg (by positivity)
  have hfs : wFilterScale F32.rnd f inn out ≤ (1 + 1 / 2 ^ 22) / cut := by
    unfold wFilterScale
    rw [← hcutd]
    have h3 : (1 : ℚ) / 2 ^ 126 ≤ |1 / cut| := by
      rw [abs_of_nonneg (by positivity)]
      exact one_div_le_one_div_of_le (by linarith) (le_trans hcut2 (by norm_num))
    have h4 := rnd_err_rel h3
    rw [abs_of_nonneg (show 0 ≤ 1 / cut by positivity), abs_le] at h4
    have h5 : (1 + 1 / 2 ^ 22) / cut = 1 / cut + 1 / cut / 2 ^ 22 := by field_simp
    have h6 : 1 / cut / 2 ^ 24 ≤ 1 / cut / 2 ^ 22 := by gcongr <;> norm_num
    rw [h5]
    linarith [h4.2]
  refine ⟨F32.rnd (|F32.rnd (F32.rnd k - F32.rnd (c - 1 / 2))| * wFilterScale F32.rnd f inn out),
    RoundOK.rnd.nonneg (mul_nonneg (abs_nonneg _) f0), RoundOK.rnd.le_one ?_, by unfold rawWeight; rw [hw]⟩
  rw [RoundOK.rnd.nat (by omega : k ≤ 2 ^ 24)]
  calc |F32.rnd ((k : ℚ) - F32.rnd (c - 1 / 2))| * wFilterScale F32.rnd f inn out
      ≤ (cut - 1 / 10) * ((1 + 1 / 2 ^ 22) / cut) := mul_le_mul hdx hfs f0 (by linarith)
    _ ≤ 1 := by
      rw [mul_div_assoc', div_le_one (by linarith)]
      have h7 : cut * (1 / 2 ^ 22) ≤ 1 / 100 := by
        refine le_trans (mul_le_mul_of_nonneg_right hcut2 (by positivity)) (by norm_num)
      rw [show (cut - 1 / 10) * (1 + 1 / 2 ^ 22) = cut - 1 / 10 + cut * (1 / 2 ^ 22) - 1 / 10 * (1 / 2 ^ 22) by ring]
      have h8 : (0 : ℚ) ≤ 1 / 10 * (1 / 2 ^ 22) := by positivity
      linarith

/-- The running sum of signed binary32 numbers. -/
theorem foldl_sum_signed (ws : List ℚ) (hw : ∀ w ∈ ws, Rep w) : ∀ s, Rep s →
    |ws.foldl (fun s w => F32.rnd (s + w)) s - (s + ws.sum)| ≤
      ((1 + u24) ^ ws.length - 1) * (|s| + (ws.map fun w => |w|).sum) := by
  have u0 := u24_pos
  induction ws with
  | nil => intro s hr; simp
  | cons a t ih =>
    intro s hr
    have ar := hw a List.mem_cons_self
    have i1 := ih (fun w h => hw w (List.mem_cons_of_mem _ h)) (F32.rnd (s + a)) (rep_rnd _)
    have e := rnd_add_rel hr ar
    have eu : |s + a| / 2 ^ 24 = u24 * |s + a| := by unfold u24; ring
    rw [eu] at e
    have tri := abs_add_le s a
    have hT : 0 ≤ (t.map fun w => |w|).sum := List.sum_nonneg fun w h => by
      obtain ⟨v, _, rfl⟩ := List.mem_map.1 h; exact abs_nonneg v
    have hr2 : |F32.rnd (s + a)| ≤ (1 + u24) * (|s| + |a|) := by
      have : |F32.rnd (s + a)| ≤ |F32.rnd (s + a) - (s + a)| + |s + a| := by
        have := abs_add_le (F32.rnd (s + a) - (s + a)) (s + a)
        rwa [sub_add_cancel] at this
      nlinarith
    have hp : 1 ≤ (1 + u24) ^ t.length := one_le_pow₀ (by linarith)
    have as : 0 ≤ |s| + |a| := by positivity
    simp only [List.foldl_cons, List.length_cons, List.sum_cons, List.map_cons]
    have tri2 : |t.foldl (fun s w => F32.rnd (s + w)) (F32.rnd (s + a)) - (s + (a + t.sum))| ≤
        |t.foldl (fun s w => F32.rnd (s + w)) (F32.rnd (s + a)) - (F32.rnd (s + a) + t.sum)| + |F32.rnd (s + a) - (s + a)| := by
      have := abs_add_le (t.foldl (fun s w => F32.rnd (s + w)) (F32.rnd (s + a)) - (F32.rnd (s + a) + t.sum)) (F32.rnd (s + a) - (s + a))
      refine le_trans (le_of_eq ?_) this
      congr 1; ring
    have e2 : ((1 + u24) ^ t.length - 1) * (|F32.rnd (s + a)| + (t.map fun w => |w|).sum) ≤
        ((1 + u24) ^ t.length - 1) * ((1 + u24) * (|s| + |a|) + (1 + u24) * (t.map fun w => |w|).sum) :=
      mul_le_mul_of_nonneg_left (by nlinarith) (by linarith)
    have e3 : u24 * |s + a| ≤ u24 * (|s| + |a| + (t.map fun w => |w|).sum) :=
      mul_le_mul_of_nonneg_left (by linarith) u0.le
    rw [pow_succ]
    have e4 : ((1 + u24) ^ t.length * (1 + u24) - 1) * (|s| + (|a| + (t.map fun w => |w|).sum)) =
        ((1 + u24) ^ t.length - 1) * ((1 + u24) * (|s| + |a|) + (1 + u24) * (t.map fun w => |w|).sum) +
          u24 * (|s| + |a| + (t.map fun w => |w|).sum) := by ring
    linarith

theorem growth_le {n : ℕ} (hn : n ≤ 2 ^ 15) : (1 + u24) ^ n - 1 ≤ 1 / 2 ^ 8 := by
  have h1 := one_add_pow_le (n := n) (by omega)
  have h2 : (n : ℚ) * u24 ≤ 1 / 2 ^ 9 := by
    have : (n : ℚ) ≤ 2 ^ 15 := by exact_mod_cast hn
    unfold u24
    have := mul_le_mul_of_nonneg_right this (show (0 : ℚ) ≤ 1 / 2 ^ 24 by positivity)
    norm_num at this ⊢; linarith
  have hp : (0 : ℚ) ≤ (1 + u24) ^ n := pow_nonneg (by unfold u24; norm_num) _
  nlinarith

/-- How negative the taps of a window may be. -/
theorem lobes {f : Filter} (hf : Ringing f) {inn out : ℕ} (h1 : 1 ≤ inn) (h2 : inn ≤ 2 ^ 15) (ho : 1 ≤ out)
    (i : ℕ) (hsz : wEnd F32.rnd f inn out i ≤ inn) :
    ∃ β : ℕ → ℚ, (∀ j, 0 ≤ β j) ∧
      (∀ j ∈ range (wEnd F32.rnd f inn out i - wStart F32.rnd f inn out i),
        0 ≤ rawWeight F32.rnd f inn out i (wStart F32.rnd f inn out i + j) + β j) ∧
      ∑ j ∈ range (wEnd F32.rnd f inn out i - wStart F32.rnd f inn out i), β j ≤ 7 / 24 := by
  set st := wStart F32.rnd f inn out i with hst
  set m := wEnd F32.rnd f inn out i - st with hmd
  set g : ℕ → ℚ := fun j => rawWeight F32.rnd f inn out i (st + j) with hg
  have hm : m ≤ 2 ^ 15 := by omega
  -- how negative a tap may be
  set β : ℕ → ℚ := fun j => 1 / 2 ^ 18 + ((if j = 0 then 1 / 12 else 0) + if j = m - 1 then 1 / 12 else 0) with hβ
  have hβ0 : ∀ j, 0 ≤ β j := fun j => by
    simp only [hβ]
    split_ifs <;> norm_num
  have hgβ : ∀ j ∈ range m, 0 ≤ g j + β j := by
    intro j hj
    rw [mem_range] at hj
    obtain ⟨x, x0, e, _⟩ := rawWeight_plain hf.window RoundOK.rnd inn out i (st + j)
    by_cases h0 : j = 0
    · have : 1 / 12 ≤ β j := by
        simp only [hβ, if_pos h0]
        split_ifs <;> norm_num
      have := hf.outer x x0
      simp only [hg, e]; linarith
    by_cases h3 : j = m - 1
    · have : 1 / 12 ≤ β j := by
        simp only [hβ, if_pos h3]
        split_ifs <;> norm_num
      have := hf.outer x x0
      simp only [hg, e]; linarith
    · obtain ⟨y, y0, y1, ey⟩ := inner_tap (i := i) (k := st + j) hf.window hf.support h1 h2 ho (by omega) (by omega) (by omega)
      have : 1 / 2 ^ 18 ≤ β j := by
        simp only [hβ]
        split_ifs <;> norm_num
      have := hf.inner y y0 y1
      simp only [hg, ey]; linarith
  have hβs : ∑ j ∈ range m, β j ≤ 7 / 24 := by
    simp only [hβ, sum_add_distrib, sum_const, card_range, nsmul_eq_mul, sum_ite_eq', mem_range]
    have h3 : (m : ℚ) ≤ 2 ^ 15 := by exact_mod_cast hm
    have h4 : (m : ℚ) * (1 / 2 ^ 18) ≤ 1 / 8 := by
      refine le_trans (mul_le_mul_of_nonneg_right h3 (by positivity)) (by norm_num)
    split_ifs <;> linarith
  exact ⟨β, hβ0, hgβ, hβs⟩

/-- The mass of a window of a ringing filter: the exact and the computed sum of the raw weights, and of their absolute
values. -/
theorem ringing_mass {f : Filter} (hf : Ringing f) {inn out : ℕ} (h1 : 1 ≤ inn) (h2 : inn ≤ 2 ^ 15) (ho : 1 ≤ out)
    (i : ℕ) (hsz : wEnd F32.rnd f inn out i ≤ inn) :
    let ws := rawRow F32.rnd f inn out i
    0 < sumF F32.rnd ws ∧ (ws.map fun w => |w|).sum ≤ 2 ^ 16 ∧ (∀ w ∈ ws, Rep w) ∧
      (ws.map fun w => |w|).sum ≤ 478 / 100 * sumF F32.rnd ws := by
  intro ws
  obtain ⟨k1, k2⟩ := wKernelSize_range RoundOK.rnd f (inn := inn) (out := out) (by omega) ho hf.support
  set st := wStart F32.rnd f inn out i with hst
  set m := wEnd F32.rnd f inn out i - st with hmd
  set g : ℕ → ℚ := fun j => rawWeight F32.rnd f inn out i (st + j) with hg
  have hws : ws = (List.range m).map g := rfl
  have hm : m ≤ 2 ^ 15 := by omega
  have hlen : ws.length = m := by rw [hws]; simp
  have hrep : ∀ w ∈ ws, Rep w := by
    intro w hw
    obtain ⟨x, x0, rfl⟩ := rawRow_mem hf.window RoundOK.rnd inn out i w hw
    exact hf.rep x x0
  have hsum : ∀ (G : ℕ → ℚ) (n : ℕ), ((List.range n).map G).sum = ∑ j ∈ range n, G j := by
    intro G n
    induction n with
    | zero => simp
    | succ n ih => rw [List.range_succ, List.map_append, List.sum_append, ih, sum_range_succ]; simp
  obtain ⟨β, hβ0, hgβ, hβs⟩ := lobes hf h1 h2 ho i hsz
  obtain ⟨S, hS⟩ : ∃ S, S = ∑ j ∈ range m, g j := ⟨_, rfl⟩
  obtain ⟨T, hT⟩ : ∃ T, T = ∑ j ∈ range m, |g j| := ⟨_, rfl⟩
  have hSlo : 9 / 20 - 7 / 24 ≤ S := by
    obtain ⟨k, c1, c2, c3⟩ := centre_tap_rounded RoundOK.rnd (f := f) h1 (by omega : inn ≤ 2 ^ 23) k1 k2 i
    obtain ⟨x, x0, e, ex⟩ := rawWeight_plain hf.window RoundOK.rnd inn out i k
    have hk : k - st ∈ range m := mem_range.2 (by omega)
    have h3 := single_le_sum (f := fun j => g j + β j) hgβ hk
    simp only [sum_add_distrib] at h3
    have h4 : 9 / 20 ≤ g (k - st) := by
      have e2 : st + (k - st) = k := by omega
      simp only [hg, e2, e]
      exact hf.centre x x0 (ex c3)
    have := hβ0 (k - st)
    rw [hS]; linarith
  have hTS : T ≤ S + 2 * (7 / 24) := by
    have : T ≤ ∑ j ∈ range m, (g j + 2 * β j) := by
      rw [hT]
      refine sum_le_sum fun j hj => ?_
      have := hgβ j hj
      have := hβ0 j
      rw [abs_le]; constructor <;> linarith
    rw [sum_add_distrib, ← Finset.mul_sum, ← hS] at this
    linarith
  have hT0 : 0 ≤ T := by rw [hT]; exact sum_nonneg fun j _ => abs_nonneg _
  have hsS : ws.sum = S := by rw [hws, hsum, hS]
  have hsT : (ws.map fun w => |w|).sum = T := by
    rw [hws, List.map_map, hsum, hT]; rfl
  have hT2 : T ≤ 2 ^ 16 := by
    have : T ≤ ∑ j ∈ range m, (2 : ℚ) := by
      rw [hT]
      refine sum_le_sum fun j _ => ?_
      obtain ⟨x, x0, e, _⟩ := rawWeight_plain hf.window RoundOK.rnd inn out i (st + j)
      have a := hf.outer x x0
      have b := hf.le_two x x0
      simp only [hg, e]
      rw [abs_le]; constructor <;> linarith
    rw [sum_const, card_range, nsmul_eq_mul] at this
    have h3 : (m : ℚ) ≤ 2 ^ 15 := by exact_mod_cast hm
    linarith
  have rep0 : Rep 0 := ⟨0, 0, by simp, by norm_num, by omega⟩
  have hE := foldl_sum_signed ws hrep 0 rep0
  rw [zero_add, abs_zero, zero_add, hsS, hsT, hlen] at hE
  have hE2 : |sumF F32.rnd ws - S| ≤ 1 / 2 ^ 8 * T := le_trans hE (mul_le_mul_of_nonneg_right (growth_le hm) hT0)
  rw [abs_le] at hE2
  rw [hsT]
  refine ⟨?_, hT2, hrep, ?_⟩
  · linarith [hE2.1]
  · linarith [hE2.1]

theorem quantise_abs {v : ℚ} (hv : Rep v) : |(quantise F32.rnd v : ℚ)| ≤ |v| * 32768 + 1 / 2 := by
  have he := F32.round_err (v * 32768)
  have hq : |quantise F32.rnd v| ≤ |F32.round (v * 32768)| := by
    unfold quantise
    rw [hv.scale.rnd]
    rcases le_total 0 (F32.round (v * 32768)) with h | h
    · rw [abs_of_nonneg h, abs_le]; omega
    · rw [abs_of_nonpos h, abs_le]; omega
  have hq' : |(quantise F32.rnd v : ℚ)| ≤ |(F32.round (v * 32768) : ℚ)| := by exact_mod_cast hq
  have h1 := abs_add_le ((F32.round (v * 32768) : ℚ) - v * 32768) (v * 32768)
  rw [sub_add_cancel, abs_mul v, abs_of_pos (show (0 : ℚ) < 32768 by norm_num)] at h1
  linarith

/-- The reciprocal of the weight sum, as the code computes it. -/
theorem recip_le {s : ℚ} (hs : 0 < s) : F32.rnd (1 / s) ≤ 1 / s * (1 + u24) + 1 / 2 ^ 150 := by
  have h := rnd_err_le (1 / s)
  rw [abs_of_pos (show 0 < 1 / s by positivity), abs_le] at h
  have e : 1 / s / 2 ^ 24 = 1 / s * u24 := by unfold u24; ring
  rw [e] at h
  linarith [h.2]

/-- **The absolute quantised weights of a window of a ringing filter add up to at most `2^18`.** -/
theorem ringing_row {f : Filter} (hf : Ringing f) {inn out : ℕ} (h1 : 1 ≤ inn) (h2 : inn ≤ 2 ^ 15) (ho : 1 ≤ out)
    (i : ℕ) (hsz : wEnd F32.rnd f inn out i ≤ inn) :
    ((genRow F32.rnd f inn out i).map fun v => |quantise F32.rnd v|).sum ≤ 2 ^ 18 := by
  obtain ⟨m1, m2, m3, m4⟩ := ringing_mass hf h1 h2 ho i hsz
  have hlen : (rawRow F32.rnd f inn out i).length ≤ 2 ^ 15 := by
    rw [rawRow_length]
    show wEnd F32.rnd f inn out i - _ ≤ _
    omega
  unfold genRow
  rw [show preRow F32.rnd f (rawRow F32.rnd f inn out i) = (rawRow F32.rnd f inn out i, sumF F32.rnd (rawRow F32.rnd f inn out i))
    by unfold preRow; rw [hf.ewa]]
  generalize rawRow F32.rnd f inn out i = ws at *
  unfold normRow
  simp only
  rw [if_pos (ne_of_gt m1)]
  have hr0 : 0 ≤ F32.rnd (1 / sumF F32.rnd ws) := RoundOK.rnd.nonneg (by positivity)
  have hr := recip_le m1
  set r := F32.rnd (1 / sumF F32.rnd ws)
  have u0 := u24_pos
  have one : ∀ w, ((|quantise F32.rnd (F32.rnd (w * r))| : ℤ) : ℚ) ≤ |w| * r * (1 + u24) * 32768 + 1 := by
    intro w
    have a := quantise_abs (rep_rnd (w * r))
    have b := rnd_err_le (w * r)
    have c := abs_add_le (F32.rnd (w * r) - w * r) (w * r)
    rw [sub_add_cancel] at c
    have e : |w * r| / 2 ^ 24 = |w| * r * u24 := by rw [abs_mul, abs_of_nonneg hr0]; unfold u24; ring
    rw [e] at b
    rw [abs_mul w r, abs_of_nonneg hr0] at c
    have t : (1 : ℚ) / 2 ^ 150 * 32768 ≤ 1 / 2 := by norm_num
    push_cast
    nlinarith
  have key : ∀ l : List ℚ, ((((l.map fun v => F32.rnd (v * r)).map fun v => |quantise F32.rnd v|).sum : ℤ) : ℚ) ≤
      (l.map fun w => |w|).sum * r * (1 + u24) * 32768 + l.length := by
    intro l
    induction l with
    | nil => simp
    | cons a t ih =>
      have := one a
      simp only [List.map_cons, List.sum_cons, Int.cast_add, List.length_cons, Nat.cast_add, Nat.cast_one]
      linarith
  have k := key ws
  set T := (ws.map fun w => |w|).sum with hT
  have hT0 : 0 ≤ T := List.sum_nonneg fun w h => by
    obtain ⟨v, _, rfl⟩ := List.mem_map.1 h; exact abs_nonneg v
  have hTr : T * r ≤ 48 / 10 := by
    have a : T * r ≤ T * (1 / sumF F32.rnd ws * (1 + u24) + 1 / 2 ^ 150) := mul_le_mul_of_nonneg_left hr hT0
    have b : T * (1 / sumF F32.rnd ws) ≤ 478 / 100 := by
      rw [mul_one_div, div_le_iff₀ m1]; exact m4
    have c : T * (1 / 2 ^ 150) ≤ 1 / 1000 :=
      le_trans (mul_le_mul_of_nonneg_right m2 (by positivity)) (by norm_num)
    have d : T * (1 / sumF F32.rnd ws) * u24 ≤ 478 / 100 * u24 := mul_le_mul_of_nonneg_right b u0.le
    have e : 478 / 100 * u24 ≤ 1 / 1000 := by unfold u24; norm_num
    nlinarith
  have hTr0 : 0 ≤ T * r := mul_nonneg hT0 hr0
  have hu : T * r * (1 + u24) ≤ 49 / 10 := by
    have : T * r * u24 ≤ 48 / 10 * u24 := mul_le_mul_of_nonneg_right hTr u0.le
    have e : 48 / 10 * u24 ≤ 1 / 1000 := by unfold u24; norm_num
    nlinarith
  have hl : (ws.length : ℚ) ≤ 2 ^ 15 := by exact_mod_cast hlen
  have : ((((ws.map fun v => F32.rnd (v * r)).map fun v => |quantise F32.rnd v|).sum : ℤ) : ℚ) ≤ 2 ^ 18 := by linarith
  exact_mod_cast this

end PicScale
