import Verif.SpecFlat
import Verif.Props.CubicFlat
import Verif.Props.X86F32
import Verif.Props.NeonF32

/-!
Property theorem C267: pictures of one floating point value, resized with an averaging or a cubic filter.
-/

namespace PicScale

open Finset F32 Spec

/-- The filters whose weights are known to add up to one. -/
def Normalised (L : Lib) (r : ResamplingFunction) : Prop := r ∈ averaging2 ∨ Cubics L r

/-- The weights of a window: they add up to one, and their absolute values to at most five. -/
theorem normalised_weights {L : Lib} {r : ResamplingFunction} (hr : Normalised L r) {inn out : ℕ} {fw : FilterWeights ℚ}
    (h1 : 1 ≤ inn) (h2 : inn ≤ 2 ^ 15) (ha : r = .area → out ≤ 2 ^ 22) (e : tableOf L r inn out = some fw) {i : ℕ}
    (hi : i < out) :
    (fw.bound i).size ≤ 2 ^ 15 ∧
      |∑ k ∈ range (fw.bound i).size, fw.weight i k - 1| ≤ (5 * (fw.bound i).size + 7) / 2 ^ 24 ∧
      ∑ k ∈ range (fw.bound i).size, |fw.weight i k| ≤ 5 := by
  unfold tableOf at e
  have hsz : (fw.bound i).size ≤ 2 ^ 15 := by
    obtain ⟨fw', e', v, _⟩ := generateWeights_spec RoundOK.rnd (filterOf_ok L r) (out := out) h1 (by omega)
      (fun hA i hi => areaSx_rnd h1 (by omega) (ha (filterOf_area L r hA)) hi)
    rw [e] at e'
    obtain rfl := Option.some.inj e'
    have := v.inside i hi
    omega
  have hq : ((fw.bound i).size : ℚ) ≤ 2 ^ 15 := by exact_mod_cast hsz
  have hq0 : (0 : ℚ) ≤ ((fw.bound i).size : ℚ) := by positivity
  refine ⟨hsz, ?_⟩
  rcases hr with hr | hr
  · obtain ⟨fw', e', hs⟩ := C116_normalised (L := L) hr inn out h1 (by omega) ha
    rw [e] at e'
    obtain rfl := Option.some.inj e'
    obtain ⟨hnn, hs⟩ := hs i hi
    rw [sum_congr rfl fun k _ => abs_of_nonneg (hnn k)]
    refine ⟨le_trans hs (by gcongr <;> linarith), ?_⟩
    rw [abs_le] at hs
    have : (2 * ((fw.bound i).size : ℚ) + 5) / 2 ^ 24 ≤ 4 := by
      rw [div_le_iff₀ (by norm_num)]; linarith
    linarith [hs.2]
  · obtain ⟨fw', e', hs⟩ := C265_normalised hr inn out h1 h2
    rw [e] at e'
    obtain rfl := Option.some.inj e'
    refine ⟨hs i hi, ?_⟩
    obtain ⟨fw', ks, e', v, t⟩ := cubics_table hr (out := out) h1 h2
    rw [e] at e'
    obtain rfl := Option.some.inj e'
    have hf := cubics_ringing hr
    have hin := v.inside i hi
    have hpos := v.size_pos i hi
    have hb := t.bound hi
    have hrl := t.rowLen i hi
    rw [hb] at hin hpos ⊢
    have hsz' : wEnd F32.rnd (filterOf F32.rnd L r) inn out i ≤ inn := by
      have a1 : wStart F32.rnd (filterOf F32.rnd L r) inn out i +
        (wEnd F32.rnd (filterOf F32.rnd L r) inn out i - wStart F32.rnd (filterOf F32.rnd L r) inn out i) ≤ inn := hin
      omega
    obtain ⟨m1, m2, m3, m4⟩ := ringing_mass hf h1 h2 (by omega) i hsz'
    have hl : (rawRow F32.rnd (filterOf F32.rnd L r) inn out i).length ≤ 2 ^ 15 := by
      rw [rawRow_length]; omega
    have key := signed_norm_abs hl m1 m2 m4
    have hgen : genRow F32.rnd (filterOf F32.rnd L r) inn out i =
        normRow F32.rnd (rawRow F32.rnd (filterOf F32.rnd L r) inn out i, sumF F32.rnd (rawRow F32.rnd (filterOf F32.rnd L r) inn out i)) := by
      unfold genRow preRow
      rw [hf.ewa]
    rw [← hgen] at key
    refine le_trans (le_of_eq ?_) key
    rw [← hrl]
    have : ∀ R : List ℚ, ∑ k ∈ range R.length, |R.getD k 0| = (R.map fun w => |w|).sum := by
      intro R
      induction R with
      | nil => simp
      | cons a t ih =>
        rw [List.length_cons, sum_range_succ', List.map_cons, List.sum_cons, ← ih]
        simp [add_comm]
    rw [← this]
    refine sum_congr rfl fun k hk => ?_
    rw [mem_range] at hk
    rw [t.weight hi (lt_of_lt_of_le hk (t.rowLe i hi))]

theorem dotSum_flat (n : ℕ) (v : ℚ) (w : ℕ → ℚ) : dotSum n (fun _ => v) w = v * ∑ k ∈ range n, w k := by
  unfold dotSum; rw [mul_sum]

theorem termSize_flat (n : ℕ) (v : ℚ) (w : ℕ → ℚ) : termSize n (fun _ => v) w = |v| * ∑ k ∈ range n, |w k| := by
  unfold termSize; rw [mul_sum]

/-- One pass over a uniform picture. -/
theorem flat_one {a n : ℕ} {v s S A : ℚ} (ha : a ≤ n) (hn : n ≤ 2 ^ 15) (hS : |S - 1| ≤ (5 * a + 7) / 2 ^ 24) (hA : A ≤ 5)
    (hA0 : 0 ≤ A) (h : |s - v * S| ≤ Spec.floatErr a (|v| * A)) : |s - v| ≤ flatErr n v := by
  have haq : (a : ℚ) ≤ n := by exact_mod_cast ha
  have ha0 : (0 : ℚ) ≤ a := by positivity
  have hv := abs_nonneg v
  have b := C90_bound_size a (by omega) (T := |v| * A) (by positivity)
  have c : |v * S - v| ≤ |v| * ((5 * a + 7) / 2 ^ 24) := by
    rw [show v * S - v = v * (S - 1) by ring, abs_mul]
    exact mul_le_mul_of_nonneg_left hS hv
  have d := abs_sub_le s (v * S) v
  have e : (a + 3 : ℚ) / 2 ^ 23 * (|v| * A) ≤ (a + 3) / 2 ^ 23 * (|v| * 5) := by gcongr
  have f : (8 * (a : ℚ) + 3) / 2 ^ 149 ≤ (128 * n + 64) / 2 ^ 149 := by gcongr <;> linarith
  have g : |v| * ((5 * (a : ℚ) + 7) / 2 ^ 24) + (a + 3) / 2 ^ 23 * (|v| * 5) ≤ (120 * n + 400) / 2 ^ 24 * |v| := by
    have e1 : |v| * ((5 * (a : ℚ) + 7) / 2 ^ 24) + (a + 3) / 2 ^ 23 * (|v| * 5) = (15 * a + 37) / 2 ^ 24 * |v| := by ring
    rw [e1]
    gcongr <;> linarith
  unfold flatErr
  linarith

/-- Two passes over a uniform picture. -/
theorem flat_two {a b n : ℕ} {v s S S' A A' : ℚ} (ha : a ≤ n) (hb : b ≤ n) (hn : n ≤ 2 ^ 15)
    (hS : |S - 1| ≤ (5 * a + 7) / 2 ^ 24) (hA : A ≤ 5) (hA0 : 0 ≤ A)
    (hS' : |S' - 1| ≤ (5 * b + 7) / 2 ^ 24) (hA' : A' ≤ 5) (hA'0 : 0 ≤ A')
    (h : |s - v * S * S'| ≤ Spec.floatErr b (A' * (A * |v| + Spec.floatErr a (A * |v|))) + A' * Spec.floatErr a (A * |v|)) :
    |s - v| ≤ flatErr n v := by
  have haq : (a : ℚ) ≤ n := by exact_mod_cast ha
  have hbq : (b : ℚ) ≤ n := by exact_mod_cast hb
  have hnq : (n : ℚ) ≤ 2 ^ 15 := by exact_mod_cast hn
  have ha0 : (0 : ℚ) ≤ a := by positivity
  have hb0 : (0 : ℚ) ≤ b := by positivity
  obtain ⟨m, hm⟩ : ∃ m, m = |v| := ⟨_, rfl⟩
  have hv : 0 ≤ m := by rw [hm]; exact abs_nonneg v
  rw [← hm] at h
  have e0 : 0 ≤ Spec.floatErr a (A * m) := by
    have : 1 ≤ (1 + 1 / 2 ^ 24 : ℚ) ^ (a + 3) := one_le_pow₀ (by norm_num)
    unfold Spec.floatErr
    refine add_nonneg (mul_nonneg (by linarith) (by positivity)) (by positivity)
  have b1 := C90_bound_size a (by omega) (T := A * m) (by positivity)
  have b2 := C90_bound_size b (by omega) (T := A' * (A * m + Spec.floatErr a (A * m)))
    (mul_nonneg hA'0 (add_nonneg (by positivity) e0))
  set E := Spec.floatErr a (A * m) with hE
  obtain ⟨t, ht⟩ : ∃ t : ℚ, t = 1 / 2 ^ 149 := ⟨_, rfl⟩
  have t0 : 0 ≤ t := by rw [ht]; positivity
  -- the error of the first pass
  have q1 : E ≤ (10 * n + 30) / 2 ^ 24 * m + (8 * n + 3) * t := by
    have c1 : (a + 3 : ℚ) / 2 ^ 23 * (A * m) ≤ (n + 3) / 2 ^ 23 * (5 * m) := by gcongr
    have c2 : (8 * (a : ℚ) + 3) / 2 ^ 149 ≤ (8 * n + 3) * t := by
      rw [ht, mul_one_div]; gcongr
    have c3 : (n + 3 : ℚ) / 2 ^ 23 * (5 * m) = (10 * n + 30) / 2 ^ 24 * m := by ring
    linarith
  have hsmall : (n + 3 : ℚ) / 2 ^ 23 ≤ 1 / 250 := by rw [div_le_iff₀ (by norm_num)]; linarith
  have q2 : (b + 3 : ℚ) / 2 ^ 23 * (A' * (A * m + E)) ≤ (50 * n + 150) / 2 ^ 24 * m + 1 / 50 * E := by
    have c1 : A' * (A * m + E) ≤ 5 * (5 * m + E) := by gcongr
    have c2 : (b + 3 : ℚ) / 2 ^ 23 ≤ (n + 3) / 2 ^ 23 := by gcongr
    have c3 : (b + 3 : ℚ) / 2 ^ 23 * (A' * (A * m + E)) ≤ (n + 3) / 2 ^ 23 * (5 * (5 * m + E)) :=
      mul_le_mul c2 c1 (mul_nonneg hA'0 (add_nonneg (by positivity) e0)) (by positivity)
    have c4 : (n + 3 : ℚ) / 2 ^ 23 * (5 * E) ≤ 1 / 250 * (5 * E) := mul_le_mul_of_nonneg_right hsmall (by linarith)
    have c5 : (n + 3 : ℚ) / 2 ^ 23 * (5 * (5 * m + E)) = (50 * n + 150) / 2 ^ 24 * m + (n + 3) / 2 ^ 23 * (5 * E) := by ring
    linarith
  have q3 : A' * E ≤ 5 * E := mul_le_mul_of_nonneg_right hA' e0
  have q4 : (8 * (b : ℚ) + 3) / 2 ^ 149 ≤ (8 * n + 3) * t := by
    rw [ht, mul_one_div]; gcongr
  -- the exact value
  have q5 : |v * S * S' - v| ≤ (11 * n + 16) / 2 ^ 24 * m := by
    have x1 : |S - 1| ≤ (5 * n + 7) / 2 ^ 24 := le_trans hS (by gcongr)
    have x2 : |S' - 1| ≤ (5 * n + 7) / 2 ^ 24 := le_trans hS' (by gcongr)
    have x3 : (5 * (n : ℚ) + 7) / 2 ^ 24 ≤ 1 / 10 := by rw [div_le_iff₀ (by norm_num)]; linarith
    have x4 : |S * S' - 1| ≤ (11 * n + 16) / 2 ^ 24 := by
      have y1 : |S * S' - 1| ≤ |(S - 1) * (S' - 1)| + (|S - 1| + |S' - 1|) := by
        have := abs_add_le ((S - 1) * (S' - 1)) ((S - 1) + (S' - 1))
        rw [show (S - 1) * (S' - 1) + ((S - 1) + (S' - 1)) = S * S' - 1 by ring] at this
        have := abs_add_le (S - 1) (S' - 1)
        linarith
      have y2 : |(S - 1) * (S' - 1)| ≤ 1 / 10 * ((5 * n + 7) / 2 ^ 24) := by
        rw [abs_mul]; exact mul_le_mul (le_trans x1 x3) x2 (abs_nonneg _) (by norm_num)
      have y3 : (1 / 10 + 2) * ((5 * (n : ℚ) + 7) / 2 ^ 24) ≤ (11 * n + 16) / 2 ^ 24 := by
        rw [mul_div_assoc']
        have : (0 : ℚ) ≤ n := by positivity
        gcongr
        linarith
      linarith
    rw [show v * S * S' - v = v * (S * S' - 1) by ring, abs_mul, ← hm, mul_comm]
    exact mul_le_mul_of_nonneg_right x4 hv
  have d := abs_sub_le s (v * S * S') v
  have g : (50 * (n : ℚ) + 150) / 2 ^ 24 * m + (11 * n + 16) / 2 ^ 24 * m + (5 + 1 / 50) * ((10 * n + 30) / 2 ^ 24 * m) ≤
      (120 * n + 400) / 2 ^ 24 * m := by
    have e1 : (50 * (n : ℚ) + 150) / 2 ^ 24 * m + (11 * n + 16) / 2 ^ 24 * m + (5 + 1 / 50) * ((10 * n + 30) / 2 ^ 24 * m) =
        (50 * n + 150 + 11 * n + 16 + (5 + 1 / 50) * (10 * n + 30)) / 2 ^ 24 * m := by ring
    rw [e1]
    have : (0 : ℚ) ≤ n := by positivity
    exact mul_le_mul_of_nonneg_right (div_le_div_of_nonneg_right (by linarith) (by norm_num)) hv
  have g2 : (8 * (n : ℚ) + 3) * t + (5 + 1 / 50) * ((8 * n + 3) * t) ≤ (128 * n + 64) / 2 ^ 149 := by
    have e1 : (128 * (n : ℚ) + 64) / 2 ^ 149 = (128 * n + 64) * t := by rw [ht, mul_one_div]
    have : (0 : ℚ) ≤ n * t := by positivity
    rw [e1]
    nlinarith
  unfold flatErr
  rw [← hm]
  linarith

/-- The windows of both passes have at most `n` pixels. -/
def WindowsF (L : Lib) (r : ResamplingFunction) (store into : Image ℚ) (n : ℕ) : Prop :=
  (∀ fw, tableOf L r store.height into.height = some fw → ∀ i, i < into.height → (fw.bound i).size ≤ n) ∧
    ∀ fw, tableOf L r store.width into.width = some fw → ∀ i, i < into.width → (fw.bound i).size ≤ n

/-- C267 on x86 when row padding does not exceed the value. -/
theorem flat_f32_full {W N n : ℕ} {v : ℚ} {L : Lib} {r : ResamplingFunction} {store into : Image ℚ}
    (hr : Normalised L r) (h : AcceptedF W N r store into) (h15 : store.width ≤ 2 ^ 15 ∧ store.height ≤ 2 ^ 15)
    (cpu : Cpu) (fma fused : Bool) (hn : n ≤ 2 ^ 15) (hw : WindowsF L r store into n)
    (hp : N = 1 → cpu.sse41 = true → n ≤ 16 ∨ into.height % 4 = 0) (hb : ∀ s ∈ store.buffer, |s| ≤ |v|)
    (hflat : ∀ y x c, y < store.height → x < store.width → c < N →
      sample store.buffer (store.strideOf N) N y x c = some v) :
    ∃ out, genericResize W N (formatF32X86 cpu fma fused ratOps N) L r store into = some (.ok (), out) ∧
      ∀ y x c, y < into.height → x < into.width → c < N →
        ∃ s, sample out.buffer (into.strideOf N) N y x c = some s ∧ |s - v| ≤ flatErr n v := by
  obtain ⟨_, _, c3, _⟩ := checkResize_ok.1 h.checked
  have ta : ∀ {i m}, into.height % 4 = 0 ∨ m ≤ 16 → i < into.height → i < into.height - into.height % 4 ∨ m ≤ 16 := by
    intro i m h hi
    rcases h with h | h
    · left; omega
    · exact Or.inr h
  have px : ∀ {y x c}, y < store.height → x < store.width → c < N →
      pxD 0 store.buffer (store.strideOf N) N y x c = v := by
    intro y x c hy hx hc
    unfold pxD
    rw [hflat y x c hy hx hc]; rfl
  by_cases e1 : store.width = into.width
  · obtain ⟨vf, out, ev, o1, o2⟩ := C90_f32_accuracy_vertical (L := L) h e1 cpu fma fused
    refine ⟨out, o1, fun y x c hy hx hc => ?_⟩
    obtain ⟨s, s1, s2⟩ := o2 y x c hy hx hc
    refine ⟨s, s1, ?_⟩
    obtain ⟨_, z1, z2⟩ := normalised_weights hr c3.2.1 h15.2 (fun a => (h.area a).2) ev hy
    obtain ⟨vf', ev', Tv, _⟩ := table_exists L r (out := into.height) c3.2.1 h.small.2 (fun a => (h.area a).2)
    rw [ev] at ev'
    obtain rfl := Option.some.inj ev'
    have hin := Tv.inside y hy
    have d1 : dotSum (vf.bound y).size (fun k => pxD 0 store.buffer (store.strideOf N) N ((vf.bound y).start + k) x c)
        (fun k => vf.weight y k) = v * ∑ k ∈ range (vf.bound y).size, vf.weight y k := by
      rw [← dotSum_flat]
      refine sum_congr rfl fun k hk => ?_
      rw [mem_range] at hk
      beta_reduce
      rw [px (by omega) (by omega) hc]
    have d2 : termSize (vf.bound y).size (fun k => pxD 0 store.buffer (store.strideOf N) N ((vf.bound y).start + k) x c)
        (fun k => vf.weight y k) = |v| * ∑ k ∈ range (vf.bound y).size, |vf.weight y k| := by
      rw [← termSize_flat]
      refine sum_congr rfl fun k hk => ?_
      rw [mem_range] at hk
      beta_reduce
      rw [px (by omega) (by omega) hc]
    rw [d1, d2] at s2
    exact flat_one (hw.1 _ ev y hy) hn z1 z2 (sum_nonneg fun _ _ => abs_nonneg _) s2
  by_cases e2 : store.height = into.height
  · obtain ⟨hf, out, ev, o1, o2⟩ := f32_accuracy_horizontal (L := L) h e2 cpu fma fused
    refine ⟨out, o1, fun y x c hy hx hc => ?_⟩
    have hwx := hw.2 _ ev x hx
    obtain ⟨s, s1, s2⟩ := o2 y x c hy hx hc (fun a b => ta (Or.symm (Or.imp (fun g => le_trans hwx g) id (hp a b))) hy)
    refine ⟨s, s1, ?_⟩
    obtain ⟨_, z1, z2⟩ := normalised_weights hr c3.1 h15.1 (fun a => (h.area a).1) ev hx
    obtain ⟨hf', ev', Th, _⟩ := table_exists L r (out := into.width) c3.1 h.small.1 (fun a => (h.area a).1)
    rw [ev] at ev'
    obtain rfl := Option.some.inj ev'
    have hin := Th.inside x hx
    have d1 : dotSum (hf.bound x).size (fun k => pxD 0 store.buffer (store.strideOf N) N y ((hf.bound x).start + k) c)
        (fun k => hf.weight x k) = v * ∑ k ∈ range (hf.bound x).size, hf.weight x k := by
      rw [← dotSum_flat]
      refine sum_congr rfl fun k hk => ?_
      rw [mem_range] at hk
      beta_reduce
      rw [px (by omega) (by omega) hc]
    have d2 : termSize (hf.bound x).size (fun k => pxD 0 store.buffer (store.strideOf N) N y ((hf.bound x).start + k) c)
        (fun k => hf.weight x k) = |v| * ∑ k ∈ range (hf.bound x).size, |hf.weight x k| := by
      rw [← termSize_flat]
      refine sum_congr rfl fun k hk => ?_
      rw [mem_range] at hk
      beta_reduce
      rw [px (by omega) (by omega) hc]
    rw [d1, d2] at s2
    exact flat_one hwx hn z1 z2 (sum_nonneg fun _ _ => abs_nonneg _) s2
  · obtain ⟨vf, hf, out, ev, eh, o1, o2⟩ := f32_accuracy_both (L := L) h ⟨e1, e2⟩ cpu fma fused (M := |v|) hb
    refine ⟨out, o1, fun y x c hy hx hc => ?_⟩
    have hwx := hw.2 _ eh x hx
    obtain ⟨s, s1, s2⟩ := o2 y x c hy hx hc (fun a b => ta (Or.symm (Or.imp (fun g => le_trans hwx g) id (hp a b))) hy)
    refine ⟨s, s1, ?_⟩
    obtain ⟨_, y1, y2⟩ := normalised_weights hr c3.2.1 h15.2 (fun a => (h.area a).2) ev hy
    obtain ⟨_, z1, z2⟩ := normalised_weights hr c3.1 h15.1 (fun a => (h.area a).1) eh hx
    obtain ⟨vf', ev', Tv, _⟩ := table_exists L r (out := into.height) c3.2.1 h.small.2 (fun a => (h.area a).2)
    rw [ev] at ev'
    obtain rfl := Option.some.inj ev'
    obtain ⟨hf', eh', Th, _⟩ := table_exists L r (out := into.width) c3.1 h.small.1 (fun a => (h.area a).1)
    rw [eh] at eh'
    obtain rfl := Option.some.inj eh'
    have hin := Tv.inside y hy
    have hin' := Th.inside x hx
    have d1 : dotSum (hf.bound x).size (fun k => dotSum (vf.bound y).size
        (fun j => pxD 0 store.buffer (store.strideOf N) N ((vf.bound y).start + j) ((hf.bound x).start + k) c)
        (fun j => vf.weight y j)) (fun k => hf.weight x k) =
        v * (∑ k ∈ range (vf.bound y).size, vf.weight y k) * ∑ k ∈ range (hf.bound x).size, hf.weight x k := by
      rw [← dotSum_flat, ← dotSum_flat]
      refine sum_congr rfl fun k hk => ?_
      rw [mem_range] at hk
      congr 1
      refine sum_congr rfl fun j hj => ?_
      rw [mem_range] at hj
      beta_reduce
      rw [px (by omega) (by omega) hc]
    rw [d1] at s2
    exact flat_two (hw.1 _ ev y hy) hwx hn y1 y2 (sum_nonneg fun _ _ => abs_nonneg _) z1 z2
      (sum_nonneg fun _ _ => abs_nonneg _) s2

/-- The picture with every buffer element equal to `v`. -/
def filled (v : ℚ) (a : Image ℚ) : Image ℚ := { a with buffer := List.replicate a.buffer.length v }

theorem filled_accepted {W N : ℕ} {r : ResamplingFunction} {store into : Image ℚ} (v : ℚ) (h : AcceptedF W N r store into) :
    AcceptedF W N r (filled v store) into := by
  refine ⟨h.channels, ?_, h.filter, h.sizes, h.small, h.area, h.fits⟩
  have hv : (filled v store).validate N = store.validate N := by
    unfold filled Image.validate
    simp only [List.length_replicate]
    rfl
  have hc := h.checked
  unfold checkResize at hc ⊢
  rw [hv]
  exact hc

theorem filled_sample {N : ℕ} {store : Image ℚ} (v : ℚ) (hN : 1 ≤ N) (hs : store.validate N = .ok ()) {y x c : ℕ} (hy : y < store.height)
    (hx : x < store.width) (hc : c < N) :
    sample (filled v store).buffer ((filled v store).strideOf N) N y x c = some v := by
  obtain ⟨hl', hst⟩ := validate_facts hs
  have hl : y * store.strideOf N + x * N + c < store.buffer.length := by
    rw [hl']
    have h1 : (y + 1) * store.strideOf N ≤ store.height * store.strideOf N := Nat.mul_le_mul_right _ (by omega)
    have h2 : (x + 1) * N ≤ store.width * N := Nat.mul_le_mul_right _ (by omega)
    rw [Nat.succ_mul] at h1 h2
    have hcomm : store.strideOf N * store.height = store.height * store.strideOf N := Nat.mul_comm _ _
    omega
  show sample (List.replicate store.buffer.length v) (store.strideOf N) N y x c = some v
  unfold sample
  rw [List.getElem?_replicate, if_pos hl]

/-- **C267, x86.** A picture of one finite value `v`, resized with an averaging filter of support two or a cubic filter,
windows of at most `n` pixels, sources up to 32768 x 32768, on any x86 CPU with or without FMA: every sample is `v` up to
`flatErr n v`, whatever the row padding holds. Planes on CPUs with SSE4.1: windows of at most 16 pixels, or a height
divisible by four (otherwise false: `C91_violated`). -/
theorem C267_flat_f32 {W N n : ℕ} {v : ℚ} {L : Lib} {r : ResamplingFunction} {store into : Image ℚ}
    (hr : Normalised L r) (h : AcceptedF W N r store into) (h15 : store.width ≤ 2 ^ 15 ∧ store.height ≤ 2 ^ 15)
    (cpu : Cpu) (fma fused : Bool) (hn : n ≤ 2 ^ 15) (hw : WindowsF L r store into n)
    (hp : N = 1 → cpu.sse41 = true → n ≤ 16 ∨ into.height % 4 = 0)
    (hflat : ∀ y x c, y < store.height → x < store.width → c < N →
      sample store.buffer (store.strideOf N) N y x c = some v) :
    ∃ out, genericResize W N (formatF32X86 cpu fma fused ratOps N) L r store into = some (.ok (), out) ∧
      ∀ y x c, y < into.height → x < into.width → c < N →
        ∃ s, sample out.buffer (into.strideOf N) N y x c = some s ∧ |s - v| ≤ flatErr n v := by
  obtain ⟨_, c2, c3, _⟩ := checkResize_ok.1 h.checked
  have hc := filled_accepted v h
  obtain ⟨_, _, o, _, _, _, _, ho, _⟩ := f32X86_raw (L := L) h cpu fma fused ratOps
  obtain ⟨out, o1, o2⟩ := flat_f32_full (L := L) (v := v) hr hc h15 cpu fma fused hn hw hp
    (fun s hs => by rw [(List.mem_replicate.1 hs).2]) (fun y x c hy hx hc => filled_sample v h.channels.1 c2 hy hx hc)
  refine ⟨o, ho, fun y x c hy hx hcc => ?_⟩
  obtain ⟨a, b, a1, b1, e⟩ := C94_f32_locality (L := L) h hc cpu fma fused ratOps ⟨rfl, rfl⟩ ⟨rfl, rfl⟩ hy hx hcc
    (fun vf hf j k ev eh hj hk => by
      obtain ⟨vf', ev', Tv, _⟩ := table_exists L r (out := into.height) c3.2.1 h.small.2 (fun a => (h.area a).2)
      rw [ev] at ev'
      obtain rfl := Option.some.inj ev'
      obtain ⟨hf', eh', Th, _⟩ := table_exists L r (out := into.width) c3.1 h.small.1 (fun a => (h.area a).1)
      rw [eh] at eh'
      obtain rfl := Option.some.inj eh'
      have i1 := Tv.inside y hy
      have i2 := Th.inside x hx
      have l1 : j < store.height := by split_ifs at hj <;> omega
      have l2 : k < store.width := by split_ifs at hk <;> omega
      rw [hflat j k c l1 l2 hcc, filled_sample v h.channels.1 c2 l1 l2 hcc])
  rw [ho] at a1
  rw [o1] at b1
  obtain rfl : o = a := by simpa using a1
  obtain rfl : out = b := by simpa using b1
  rw [e]
  exact o2 y x c hy hx hcc

/-- **C267, AArch64.** -/
theorem C267_flat_f32_neon {W N n : ℕ} {v : ℚ} {L : Lib} {r : ResamplingFunction} {store into : Image ℚ}
    (hr : Normalised L r) (h : AcceptedF W N r store into) (h8 : NeonSafe N store into)
    (h15 : store.width ≤ 2 ^ 15 ∧ store.height ≤ 2 ^ 15) (hn : n ≤ 2 ^ 15) (hw : WindowsF L r store into n)
    (hp : N = 1 → n ≤ 16 ∨ into.height % 4 = 0)
    (hflat : ∀ y x c, y < store.height → x < store.width → c < N →
      sample store.buffer (store.strideOf N) N y x c = some v) :
    ∃ out, genericResize W N (formatF32Neon ratOps N) L r store into = some (.ok (), out) ∧
      ∀ y x c, y < into.height → x < into.width → c < N →
        ∃ s, sample out.buffer (into.strideOf N) N y x c = some s ∧ |s - v| ≤ flatErr n v := by
  by_cases h1 : N = 1
  · rw [C169_f32_neon_x86 h h8 (by omega)]
    exact C267_flat_f32 hr h h15 _ _ _ hn hw (fun a _ => hp a) hflat
  · rw [f32Neon_scalar h h8 (Or.inl h1)]
    exact C267_flat_f32 hr h h15 _ _ _ hn hw (fun a => absurd a h1) hflat

/-- A uniform RGBA picture, and a destination. -/
def Demo.flat4 : Image ℚ := { buffer := List.replicate 120 5, channels := 4, width := 6, height := 5, stride := 24, bitDepth := 0 }

theorem windowsF_le {L : Lib} {r : ResamplingFunction} {store into : Image ℚ} {N W : ℕ} (h : AcceptedF W N r store into) :
    WindowsF L r store into (max store.width store.height) := by
  obtain ⟨_, _, c3, _⟩ := checkResize_ok.1 h.checked
  constructor
  · intro fw e i hi
    obtain ⟨fw', e', v, _⟩ := table_exists L r (out := into.height) c3.2.1 h.small.2 (fun a => (h.area a).2)
    rw [e] at e'
    obtain rfl := Option.some.inj e'
    have := v.inside i hi
    omega
  · intro fw e i hi
    obtain ⟨fw', e', v, _⟩ := table_exists L r (out := into.width) c3.1 h.small.1 (fun a => (h.area a).1)
    rw [e] at e'
    obtain rfl := Option.some.inj e'
    have := v.inside i hi
    omega

/-- Example: 6 x 5 pixels of value 5 to 2 x 3, Bicubic, with FMA. -/
example : ∃ out s, genericResize (2 ^ 64) 4 (formatF32X86 ⟨true, true⟩ true true ratOps 4) demoLib .bicubic Demo.flat4
    (Demo.fz 4 2 3) = some (.ok (), out) ∧ sample out.buffer 10 4 2 1 3 = some s ∧ |s - 5| ≤ 1 / 2000 := by
  have hc : AcceptedF (2 ^ 64) 4 .bicubic Demo.flat4 (Demo.fz 4 2 3) := by constructor <;> decide +kernel
  obtain ⟨out, h1, h2⟩ := C267_flat_f32 (L := demoLib) (r := .bicubic) (v := 5) (n := 6) (Or.inr (Or.inl (by decide))) hc
    ⟨by decide, by decide⟩ ⟨true, true⟩ true true (by norm_num) (windowsF_le hc) (fun h => absurd h (by norm_num))
    (fun y x c hy hx hc => by
      have hy' : y < 5 := hy
      have hx' : x < 6 := hx
      show sample (List.replicate 120 5) 24 4 y x c = some 5
      unfold sample
      rw [List.getElem?_replicate, if_pos (by omega)])
  obtain ⟨s, s1, s2⟩ := h2 2 1 3 (by decide) (by decide) (by decide)
  refine ⟨out, s, h1, s1, le_trans s2 ?_⟩
  unfold flatErr
  norm_num

example : ∃ out s, genericResize (2 ^ 64) 4 (formatF32Neon ratOps 4) demoLib .bicubic Demo.flat4
    (Demo.fz 4 2 3) = some (.ok (), out) ∧ sample out.buffer 10 4 2 1 3 = some s ∧ |s - 5| ≤ 1 / 2000 := by
  have hc : AcceptedF (2 ^ 64) 4 .bicubic Demo.flat4 (Demo.fz 4 2 3) := by constructor <;> decide +kernel
  obtain ⟨out, h1, h2⟩ := C267_flat_f32_neon (L := demoLib) (r := .bicubic) (v := 5) (n := 6) (Or.inr (Or.inl (by decide))) hc
    (neonSafe_four _ _) ⟨by decide, by decide⟩ (by norm_num) (windowsF_le hc) (fun h => absurd h (by norm_num))
    (fun y x c hy hx hc => by
      have hy' : y < 5 := hy
      have hx' : x < 6 := hx
      show sample (List.replicate 120 5) 24 4 y x c = some 5
      unfold sample
      rw [List.getElem?_replicate, if_pos (by omega)])
  obtain ⟨s, s1, s2⟩ := h2 2 1 3 (by decide) (by decide) (by decide)
  refine ⟨out, s, h1, s1, le_trans s2 ?_⟩
  unfold flatErr
  norm_num

end PicScale
