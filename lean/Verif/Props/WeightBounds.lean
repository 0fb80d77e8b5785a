import Verif.Lemmas.WeightCentre
import Verif.Props.Resize
import Verif.Props.X86
import Verif.Props.X86U16
import Verif.Props.Ar30
import Verif.Props.X86Ar30

/-!
Property theorems C115 – C118: weight tables of the averaging filters in binary32 arithmetic, at every
size up to `2^23`, and what they imply for whole resizes.
-/

namespace PicScale

open Finset F32 Spec

/-! ### Kernels -/

theorem rep_zero : Rep 0 := ⟨0, 0, by simp, by norm_num, by omega⟩
theorem rep_one : Rep 1 := ⟨1, 0, by simp, by norm_num, by omega⟩

theorem bilinear_rep (x : ℚ) : Rep (Kernel.bilinear F32.rnd x) := by
  unfold Kernel.bilinear; simp only; split_ifs
  · exact rep_rnd _
  · exact rep_zero

theorem quadric_rep (x : ℚ) : Rep (Kernel.quadric F32.rnd x) := by
  unfold Kernel.quadric; simp only; split_ifs
  · exact rep_rnd _
  · exact rep_rnd _
  · exact rep_zero

theorem welch_rep (x : ℚ) : Rep (Kernel.welch F32.rnd x) := by
  unfold Kernel.welch; split_ifs
  · exact rep_one
  · exact rep_zero
  · exact rep_rnd _

theorem hann_rep (L : Lib) (x : ℚ) : Rep (Kernel.hann F32.rnd L x) := by
  unfold Kernel.hann; simp only; split_ifs
  · exact rep_zero
  · exact rep_rnd _

/-- Half a pixel from the centre a rounded difference keeps one half. -/
theorem half_le_rnd {q : ℚ} (h : 1 / 2 ≤ q) : 1 / 2 ≤ F32.rnd q := by
  have := RoundOK.rnd.mono (show ((1 : ℤ) : ℚ) / 2 ≤ q by push_cast; exact h)
  rw [RoundOK.rnd.half _ (by norm_num)] at this
  push_cast at this; exact this

/-- The averaging filters with a support of two pixels. -/
def averaging2 : List ResamplingFunction := [.bilinear, .box, .area, .quadric, .ewaQuadric, .welch]

theorem averages_of2 {L : Lib} {r : ResamplingFunction} (hr : r ∈ averaging2) : Averages L r := by
  refine Or.inl ?_
  simp only [averaging, averaging2, List.mem_cons, List.not_mem_nil, or_false] at hr ⊢
  tauto

theorem averaging_of (L : Lib) {r : ResamplingFunction} (hr : r ∈ averaging2) : Averaging (filterOf F32.rnd L r) := by
  have hq : ∀ x : ℚ, 0 ≤ x → Kernel.quadric F32.rnd x ≤ 1 := by
    intro x x0
    unfold Kernel.quadric
    simp only [abs_of_nonneg x0]
    split_ifs with a b
    · refine RoundOK.rnd.le_one ?_
      have : 0 ≤ F32.rnd (x * x) := RoundOK.rnd.nonneg (by positivity)
      linarith
    · have t0 : F32.rnd (x - 3 / 2) ≤ 0 := RoundOK.rnd.nonpos (by linarith)
      have t1 : -1 ≤ F32.rnd (x - 3 / 2) := by
        have := RoundOK.rnd.mono (show ((-1 : ℤ) : ℚ) ≤ x - 3 / 2 by push_cast; linarith)
        rw [RoundOK.rnd.int _ (by norm_num)] at this
        push_cast at this; exact this
      have s0 : F32.rnd (1 / 2 * F32.rnd (x - 3 / 2)) ≤ 0 := RoundOK.rnd.nonpos (by linarith)
      have s1 : -1 ≤ F32.rnd (1 / 2 * F32.rnd (x - 3 / 2)) := by
        have := RoundOK.rnd.mono (show ((-1 : ℤ) : ℚ) ≤ 1 / 2 * F32.rnd (x - 3 / 2) by push_cast; linarith)
        rw [RoundOK.rnd.int _ (by norm_num)] at this
        push_cast at this; exact this
      exact RoundOK.rnd.le_one (by nlinarith)
    · norm_num
  have hqc : ∀ x : ℚ, 0 ≤ x → x ≤ 1 / 2 → 1 / 2 ≤ Kernel.quadric F32.rnd x := by
    intro x x0 x1
    unfold Kernel.quadric
    simp only [abs_of_nonneg x0]
    split_ifs with a b
    · refine half_le_rnd ?_
      have h4 : F32.rnd (1 / 4) = 1 / 4 := (show Rep (1 / 4) from ⟨1, -2, by norm_num, by norm_num, by norm_num⟩).rnd
      have := RoundOK.rnd.mono (show x * x ≤ 1 / 4 by nlinarith)
      rw [h4] at this; linarith
    · have e : x = 1 / 2 := by linarith
      subst e
      decide +kernel
    · exfalso; linarith
  simp only [averaging2, List.mem_cons, List.not_mem_nil, or_false] at hr
  rcases hr with rfl | rfl | rfl | rfl | rfl | rfl
  all_goals simp only [filterOf, Filter.new, Filter.newWithArea]
  · refine ⟨rfl, rfl, fun x _ => bilinear_nonneg RoundOK.rnd x, fun x _ => bilinear_rep x, ?_, ?_⟩
    · intro x x0
      unfold Kernel.bilinear; simp only [abs_of_nonneg x0]; split_ifs
      · exact RoundOK.rnd.le_one (by linarith)
      · norm_num
    · intro x x0 x1
      unfold Kernel.bilinear; simp only [abs_of_nonneg x0]; rw [if_pos (by linarith)]
      exact half_le_rnd (by linarith)
  · exact ⟨rfl, rfl, fun _ _ => by norm_num [Kernel.boxWeight], fun _ _ => rep_one,
      fun _ _ => by norm_num [Kernel.boxWeight], fun _ _ _ => by norm_num [Kernel.boxWeight]⟩
  · exact ⟨rfl, rfl, fun _ _ => by norm_num [Kernel.boxWeight], fun _ _ => rep_one,
      fun _ _ => by norm_num [Kernel.boxWeight], fun _ _ _ => by norm_num [Kernel.boxWeight]⟩
  · exact ⟨rfl, rfl, fun x _ => quadric_nonneg RoundOK.rnd x, fun x _ => quadric_rep x, hq, hqc⟩
  · exact ⟨rfl, rfl, fun x _ => quadric_nonneg RoundOK.rnd x, fun x _ => quadric_rep x, hq, hqc⟩
  · refine ⟨rfl, rfl, fun x h => welch_nonneg RoundOK.rnd x h, fun x _ => welch_rep x, ?_, ?_⟩
    · intro x x0
      show Kernel.welch F32.rnd x ≤ 1
      unfold Kernel.welch; split_ifs
      · exact le_refl _
      · norm_num
      · refine RoundOK.rnd.le_one ?_
        have : 0 ≤ F32.rnd (x * x) := RoundOK.rnd.nonneg (by positivity)
        linarith
    · intro x x0 x1
      show 1 / 2 ≤ Kernel.welch F32.rnd x
      unfold Kernel.welch; split_ifs with a b
      · norm_num
      · exfalso; linarith
      · refine half_le_rnd ?_
        have := RoundOK.rnd.mono (show x * x ≤ ((1 : ℤ) : ℚ) / 2 by push_cast; nlinarith)
        rw [RoundOK.rnd.half _ (by norm_num)] at this
        push_cast at this; linarith

/-- Every averaging filter has a non-negative kernel with binary32 values and no window. -/
theorem averaging_kernel (L : Lib) {r : ResamplingFunction} (hr : Averages L r) :
    (filterOf F32.rnd L r).window = none ∧
      ∀ x, 0 ≤ x → 0 ≤ (filterOf F32.rnd L r).kernel x ∧ Rep ((filterOf F32.rnd L r).kernel x) := by
  rcases hr with hr | ⟨hr, hL⟩
  swap
  · exact LibmBounds_kernel hL hr
  by_cases h : r ∈ averaging2
  · have := averaging_of L h
    exact ⟨this.window, fun x x0 => ⟨this.nonneg x x0, this.rep x x0⟩⟩
  · have e : r = .hann := by
      simp only [averaging, averaging2, List.mem_cons, List.not_mem_nil, or_false] at hr h
      tauto
    subst e
    exact ⟨rfl, fun x _ => ⟨hann_nonneg RoundOK.rnd L x, hann_rep L x⟩⟩

/-! ### C115: bounded weights, whatever the size -/

theorem map_sum_range (R : List ℚ) (g : ℚ → ℤ) :
    ∑ k ∈ range R.length, g (R.getD k 0) = (R.map g).sum := by
  induction R with
  | nil => simp
  | cons a t ih =>
    rw [List.length_cons, sum_range_succ', List.map_cons, List.sum_cons, ← ih]
    simp [add_comm]

/-- The quantised weights of one window, as a list. -/
theorem TableIs.q_sum {fw : FilterWeights ℚ} {ks inn out : ℕ} {R : ℕ → List ℚ} {B : ℕ → Bounds}
    (t : TableIs fw ks out R B) (v : ValidTable fw inn out) {i : ℕ} (hi : i < out) :
    ∑ k ∈ range ((numericalApproximation F32.rnd fw).bound i).size, (numericalApproximation F32.rnd fw).weight i k =
      ((R i).map (quantise F32.rnd)).sum := by
  have s : PlainShape fw out := ⟨by rw [t.kernel, t.aligned], t.distinct⟩
  have hb : ((numericalApproximation F32.rnd fw).bound i) = fw.bound i := rfl
  rw [hb, t.bound hi, ← t.rowLen i hi, ← map_sum_range]
  refine sum_congr rfl fun k hk => ?_
  rw [mem_range] at hk
  rw [s.q_weight RoundOK.rnd v, t.weight hi (lt_of_lt_of_le hk (t.rowLe i hi))]

theorem weights_bounded {L : Lib} {r : ResamplingFunction} (hr : Averages L r) {inn out : ℕ} {q : FilterWeights ℤ}
    (h1 : 1 ≤ inn) (h2 : inn ≤ 2 ^ 23) (ha : r = .area → out ≤ 2 ^ 22) (hq : IsTable L r inn out q) {i : ℕ}
    (hi : i < out) : ∑ k ∈ range (q.bound i).size, |q.weight i k| ≤ 2 ^ 18 := by
  have hnn := table_nonneg hr h1 h2 ha hq
  rw [sum_congr rfl fun k _ => abs_of_nonneg (hnn i k)]
  obtain ⟨fw, e, rfl⟩ := hq
  obtain ⟨fw', e', v, t⟩ := generateWeights_spec RoundOK.rnd (filterOf_ok L r) (out := out) h1 h2
    (fun hA i hi => areaSx_rnd h1 h2 (ha (filterOf_area L r hA)) hi)
  unfold tableOf at e
  rw [e'] at e
  obtain rfl := Option.some.inj e
  obtain ⟨k1, k2⟩ := averaging_kernel L hr
  rcases t with ⟨_, t⟩ | ⟨_, t⟩
  · rw [t.q_sum v hi]
    have hsz := v.inside i hi
    rw [t.bound hi] at hsz
    have hlen : (rawRow F32.rnd (filterOf F32.rnd L r) inn out i).length ≤ 2 ^ 23 := by
      rw [rawRow_length]; omega
    have hraw : ∀ w ∈ rawRow F32.rnd (filterOf F32.rnd L r) inn out i, 0 ≤ w ∧ Rep w := by
      intro w hw
      obtain ⟨x, x0, rfl⟩ := rawRow_mem k1 RoundOK.rnd inn out i w hw
      exact k2 x x0
    obtain ⟨a, b⟩ := preRow_near (filterOf F32.rnd L r) _ hraw hlen
    have p0 := (preRow_nonneg RoundOK.rnd (filterOf F32.rnd L r) _ fun w h => (hraw w h).1).2
    exact normRow_quantised_sum _ (fun w h => (b w h).1) p0 (by rw [preRow_length]; exact hlen) a
  · have hsz : ((numericalApproximation F32.rnd fw').bound i).size ≤ 2 := by
      have := v.size_le i hi
      rw [t.aligned] at this; exact this
    have : ∑ k ∈ range ((numericalApproximation F32.rnd fw').bound i).size, (numericalApproximation F32.rnd fw').weight i k ≤
        ∑ k ∈ range ((numericalApproximation F32.rnd fw').bound i).size, (32767 : ℤ) := by
      refine sum_le_sum fun k _ => ?_
      have s : PlainShape fw' out := ⟨by rw [t.kernel, t.aligned], t.distinct⟩
      rw [s.q_weight RoundOK.rnd v]
      exact (quantise_range _).2
    rw [sum_const, card_range, nsmul_eq_mul] at this
    have h3 : ((((numericalApproximation F32.rnd fw').bound i).size : ℕ) : ℤ) ≤ 2 := by exact_mod_cast hsz
    refine le_trans this ?_
    omega

/-- **C115.** For every averaging filter and every pair of sizes, however many source pixels contribute
to one destination pixel, the quantised weights of a window add up to at most `2^18` in absolute value:
the 32-bit accumulators of all integer code paths cannot overflow, for 8-bit, 10-bit and 12-bit samples. -/
theorem C115_no_overflow {L : Lib} {r : ResamplingFunction} (hr : Averages L r) {inn out : ℕ} {q : FilterWeights ℤ}
    (h1 : 1 ≤ inn) (h2 : inn ≤ 2 ^ 23) (ha : r = .area → out ≤ 2 ^ 22) (hq : IsTable L r inn out q) {hi : ℕ}
    (hhi : hi ≤ 4095) : NoOverflow q out hi ∧ NoOverflow30At q out hi := by
  have h3 : (hi : ℤ) ≤ 4095 := by exact_mod_cast hhi
  constructor <;>
  · intro i hi
    have := weights_bounded hr h1 h2 ha hq hi
    have h4 : 0 ≤ ∑ k ∈ range (q.bound i).size, |q.weight i k| := sum_nonneg fun _ _ => abs_nonneg _
    nlinarith

/-- A window of 40001 taps. -/
example : ∃ q, IsTable demoLib .box 40001 1 q ∧ NoOverflow q 1 255 ∧ NoOverflow30At q 1 4095 := by
  obtain ⟨fw, e, _⟩ := table_exists demoLib .box (inn := 40001) (out := 1) (by norm_num) (by norm_num) (by simp)
  exact ⟨_, ⟨fw, e, rfl⟩,
    (C115_no_overflow (Or.inl (by decide)) (by norm_num) (by norm_num) (by simp) ⟨fw, e, rfl⟩ (by norm_num)).1,
    (C115_no_overflow (Or.inl (by decide)) (by norm_num) (by norm_num) (by simp) ⟨fw, e, rfl⟩ (by norm_num)).2⟩

theorem AcceptedCall.u8 {W N : ℕ} {L : Lib} {r : ResamplingFunction} {store into : Image ℕ} (hr : Averages L r)
    (h : AcceptedCall W N r store into) (hb : ∀ v ∈ store.buffer, v ≤ 255) : Accepted W N L r store into := by
  obtain ⟨_, _, c3, _⟩ := checkResize_ok.1 h.checked
  exact ⟨h.channels, h.checked, h.filter, h.sizes, h.small, h.area, h.fits, hb,
    fun q hq => (C115_no_overflow hr c3.2.1 h.small.2 (fun a => (h.area a).2) hq (by norm_num)).1,
    fun q hq => (C115_no_overflow hr c3.1 h.small.1 (fun a => (h.area a).1) hq (by norm_num)).1⟩

theorem AcceptedCall.u8X86 {W N : ℕ} {L : Lib} {r : ResamplingFunction} {store into : Image ℕ} (hr : Averages L r)
    (h : AcceptedCall W N r store into) (hb : ∀ v ∈ store.buffer, v ≤ 255) : AcceptedX86 W N L r store into := by
  obtain ⟨_, _, c3, _⟩ := checkResize_ok.1 h.checked
  exact ⟨h, hb,
    fun q hq => (C115_no_overflow hr c3.2.1 h.small.2 (fun a => (h.area a).2) hq (by norm_num)).2,
    fun q hq => (C115_no_overflow hr c3.1 h.small.1 (fun a => (h.area a).1) hq (by norm_num)).2⟩

theorem AcceptedCall16.lb {W N : ℕ} {L : Lib} {r : ResamplingFunction} {store into : Image ℕ} (hr : Averages L r)
    (h : AcceptedCall16 W N r store into) (hd : into.bitDepth ≤ 12)
    (hb : ∀ v ∈ store.buffer, v ≤ 2 ^ into.bitDepth - 1) : AcceptedLb W N L r store into := by
  obtain ⟨_, _, c3, _⟩ := checkResize_ok.1 h.checked
  have hd' : 2 ^ into.bitDepth - 1 ≤ 4095 := by
    have := Nat.pow_le_pow_right (show 0 < 2 by norm_num) hd
    omega
  exact ⟨h, hd, hb,
    fun q hq => (C115_no_overflow hr c3.2.1 h.small.2 (fun a => (h.area a).2) hq hd').2,
    fun q hq => (C115_no_overflow hr c3.1 h.small.1 (fun a => (h.area a).1) hq hd').2⟩

theorem Call30.safe {W : ℕ} {L : Lib} {r : ResamplingFunction} {src dst : Image ℕ} (hr : Averages L r)
    (h : Call30 W r src dst) (hb : ∀ v ∈ src.buffer, v < 256) : Safe30 L r src dst ∧ Accepted30 W L r src dst := by
  obtain ⟨c3, _⟩ := check30_ok.1 h.checked
  have hv : ∀ q, IsTable L r src.height dst.height q → NoOverflow q dst.height 1023 ∧ NoOverflow30At q dst.height 1023 :=
    fun q hq => C115_no_overflow hr c3.2.1 h.small.2 (fun a => (h.area a).2) hq (by norm_num)
  have hh : ∀ q, IsTable L r src.width dst.width q → NoOverflow q dst.width 1023 ∧ NoOverflow30At q dst.width 1023 :=
    fun q hq => C115_no_overflow hr c3.1 h.small.1 (fun a => (h.area a).1) hq (by norm_num)
  exact ⟨⟨hb, fun q hq => (hv q hq).2, fun q hq => (hh q hq).2⟩,
    ⟨h.checked, h.filter, h.sizes, h.small, h.area, h.fits, hb, fun q hq => (hv q hq).1, fun q hq => (hh q hq).1⟩⟩

/-- **C115, whole 8-bit resizes.** With an averaging filter an accepted resize of an 8-bit image of any
size up to `2^23` per dimension returns normally, and every sample is the exact two-pass fixed point
value: nothing wraps around. -/
theorem C115_resize_u8 {W N : ℕ} {L : Lib} {r : ResamplingFunction} {store into : Image ℕ} (hr : Averages L r)
    (h : AcceptedCall W N r store into) (hb : ∀ v ∈ store.buffer, v ≤ 255) :
    ∃ qv qh out, IsTable L r store.height into.height qv ∧ IsTable L r store.width into.width qh ∧
      genericResize W N (formatU8 N) L r store into = some (.ok (), out) ∧
      SameShape out into ∧ PaddingKept N into out ∧
      ∀ y x c, y < into.height → x < into.width → c < N →
        sample out.buffer (into.strideOf N) N y x c = some
          (separable store.width store.height into.width into.height
            (fun i => (qv.bound i).start)
            (fun i p => fixedFloor 255 (qv.bound i).size (fun k => qv.weight i k) p)
            (fun i => (qh.bound i).start)
            (fun i p => fixedRound 255 (qh.bound i).size (fun k => qh.weight i k) p)
            (fun y x => pxD 0 store.buffer (store.strideOf N) N y x c) y x) := by
  obtain ⟨qv, qh, out, a, b, _, _, c, d, e, f⟩ := C21_separable (h.u8 (L := L) hr hb)
  exact ⟨qv, qh, out, a, b, c, d, e, f⟩

/-- A 40001 x 1 image to 3 x 1. -/
theorem Demo.hugeCall : AcceptedCall (2 ^ 64) 1 .box ⟨List.replicate 40001 200, 1, 40001, 1, 40001, 8⟩
    ⟨List.replicate 3 0, 1, 3, 1, 3, 8⟩ := by
  constructor <;> decide +kernel

example : ∃ out, genericResize (2 ^ 64) 1 (formatU8 1) demoLib .box ⟨List.replicate 40001 200, 1, 40001, 1, 40001, 8⟩
    ⟨List.replicate 3 0, 1, 3, 1, 3, 8⟩ = some (.ok (), out) := by
  obtain ⟨_, _, out, _, _, h, _⟩ := C115_resize_u8 (L := demoLib) (Or.inl (by decide)) Demo.hugeCall
    (fun v hv => by rw [(List.mem_replicate.1 hv).2]; norm_num)
  exact ⟨out, h⟩

/-! ### C116: the weights add up to one -/

/-- **C116.** In binary32 arithmetic, for every support-two averaging filter and every pair of sizes, the
weights of a destination coordinate with `n` taps are non-negative and add up to one up to `(2 n + 5) 2^-24`. -/
theorem C116_normalised {L : Lib} {r : ResamplingFunction} (hr : r ∈ averaging2) (inn out : ℕ)
    (h1 : 1 ≤ inn) (h2 : inn ≤ 2 ^ 23) (ha : r = .area → out ≤ 2 ^ 22) :
    ∃ fw, generateWeights F32.rnd (filterOf F32.rnd L r) inn out = some fw ∧
      ∀ i, i < out → (∀ k, 0 ≤ fw.weight i k) ∧
        |∑ k ∈ range (fw.bound i).size, fw.weight i k - 1| ≤ (2 * (fw.bound i).size + 5) / 2 ^ 24 := by
  have hr' : Averages L r := averages_of2 hr
  obtain ⟨fw, e, v, t⟩ := generateWeights_spec RoundOK.rnd (filterOf_ok L r) (out := out) h1 h2
    (fun hA i hi => areaSx_rnd h1 h2 (ha (filterOf_area L r hA)) hi)
  obtain ⟨fw', e', hnn⟩ := C16_nonneg_partial L r hr' inn out h1 h2 ha
  rw [e] at e'
  obtain rfl := Option.some.inj e'
  refine ⟨fw, e, fun i hi => ⟨fun k => weight_nonneg_of hnn i k, ?_⟩⟩
  have eu : ∀ n : ℕ, (2 * (n : ℚ) + 5) / 2 ^ 24 = (2 * n + 5) * u24 := by intro n; unfold u24; ring
  have hin := v.inside i hi
  have hs1 := v.size_pos i hi
  have hs2 := v.size_le i hi
  rw [eu]
  rcases t with ⟨_, t⟩ | ⟨_, t⟩
  · rw [t.row_sum hi]
    rw [t.bound hi] at hin ⊢
    exact averaging_row_sum (averaging_of L hr) h1 h2 (by omega) i (by rw [rawRow_length]; omega)
  · rw [t.row_sum hi]
    rw [t.bound hi] at hs1 hs2 ⊢
    rw [t.aligned] at hs2
    exact (areaRow_sum_near hs1 hs2).1

/-- A table whose rows do not add up exactly: 7 → 3 pixels. -/
example : ∃ fw, generateWeights F32.rnd (filterOf F32.rnd demoLib .bilinear) 7 3 = some fw ∧
    ∑ k ∈ range (fw.bound 0).size, fw.weight 0 k ≠ 1 := by
  have : (generateWeights F32.rnd (filterOf F32.rnd demoLib .bilinear) 7 3).map
      (fun fw => decide (∑ k ∈ range (fw.bound 0).size, fw.weight 0 k ≠ 1)) = some true := by decide +kernel
  obtain ⟨fw, e, h⟩ := Option.map_eq_some_iff.1 this
  exact ⟨fw, e, of_decide_eq_true h⟩

theorem quantised_near {L : Lib} {r : ResamplingFunction} (hr : r ∈ averaging2) {inn out : ℕ} {q : FilterWeights ℤ}
    (h1 : 1 ≤ inn) (h2 : inn ≤ 2 ^ 23) (ha : r = .area → out ≤ 2 ^ 22) (hq : IsTable L r inn out q) {i : ℕ}
    (hi : i < out) :
    |((∑ k ∈ range (q.bound i).size, q.weight i k : ℤ) : ℚ) - 32768| ≤
      (q.bound i).size / 2 + 1 + (2 * (q.bound i).size + 5) / 256 := by
  obtain ⟨fw, e, rfl⟩ := hq
  obtain ⟨fw', e', v, t⟩ := generateWeights_spec RoundOK.rnd (filterOf_ok L r) (out := out) h1 h2
    (fun hA i hi => areaSx_rnd h1 h2 (ha (filterOf_area L r hA)) hi)
  obtain ⟨fw'', e'', hsum⟩ := C116_normalised (L := L) hr inn out h1 h2 ha
  rw [e'] at e''
  obtain rfl := Option.some.inj e''
  unfold tableOf at e
  rw [e'] at e
  obtain rfl := Option.some.inj e
  obtain ⟨hnn, hs⟩ := hsum i hi
  have hb : ((numericalApproximation F32.rnd fw').bound i) = fw'.bound i := rfl
  have key : ∀ {ks R B}, TableIs fw' ks out R B → (∀ w ∈ R i, Rep w) →
      |((∑ k ∈ range ((numericalApproximation F32.rnd fw').bound i).size,
        (numericalApproximation F32.rnd fw').weight i k : ℤ) : ℚ) - 32768| ≤
      ((numericalApproximation F32.rnd fw').bound i).size / 2 + 1 +
        (2 * ((numericalApproximation F32.rnd fw').bound i).size + 5) / 256 := by
    intro ks R B t hR
    rw [t.q_sum v hi, hb]
    rw [t.row_sum hi] at hs
    have hl : (R i).length = (fw'.bound i).size := by rw [t.bound hi]; exact t.rowLen i hi
    have hpos : ∀ w ∈ R i, 0 ≤ w ∧ Rep w := by
      intro w hw
      obtain ⟨k, hk, rfl⟩ := List.getElem_of_mem hw
      refine ⟨?_, hR _ hw⟩
      have := hnn k
      rw [t.weight hi (lt_of_lt_of_le hk (t.rowLe i hi)), List.getD_eq_getElem?_getD,
        List.getElem?_eq_getElem hk] at this
      exact this
    have := quantised_sum_near (R i) hpos hs
    rw [hl] at this
    refine le_trans this (le_of_eq ?_)
    ring
  rcases t with ⟨_, t⟩ | ⟨_, t⟩
  · exact key t (normRow_rep _)
  · have hs1 := v.size_pos i hi
    have hs2 := v.size_le i hi
    rw [t.bound hi] at hs1 hs2
    rw [t.aligned] at hs2
    exact key t (areaRow_sum_near hs1 hs2).2

/-! ### C117: uniform images -/

theorem near64 {L : Lib} {r : ResamplingFunction} (hr : r ∈ averaging2) {inn out : ℕ} {q : FilterWeights ℤ}
    (h1 : 1 ≤ inn) (h2 : inn ≤ 2 ^ 23) (ha : r = .area → out ≤ 2 ^ 22) (hq : IsTable L r inn out q)
    (ht : ∀ i, i < out → (q.bound i).size ≤ 124) {i : ℕ} (hi : i < out) :
    |(∑ k ∈ range (q.bound i).size, q.weight i k) - 32768| ≤ 64 := by
  have := quantised_near hr h1 h2 ha hq hi
  have h3 : ((q.bound i).size : ℚ) ≤ 124 := by exact_mod_cast ht i hi
  have h4 : |((∑ k ∈ range (q.bound i).size, q.weight i k : ℤ) : ℚ) - 32768| ≤ 64 := le_trans this (by linarith)
  have h5 : (((∑ k ∈ range (q.bound i).size, q.weight i k) - 32768 : ℤ) : ℚ) =
      ((∑ k ∈ range (q.bound i).size, q.weight i k : ℤ) : ℚ) - 32768 := by push_cast; rfl
  rw [← h5, ← Int.cast_abs] at h4
  exact_mod_cast h4

/-- The 16-bit accumulators of the low precision handlers (`PreferSpeed`) cannot overflow either, up to
21000 taps. -/
theorem C115_low_precision {L : Lib} {r : ResamplingFunction} (hr : r ∈ averaging2) {inn out : ℕ} {q : FilterWeights ℤ}
    (h1 : 1 ≤ inn) (h2 : inn ≤ 2 ^ 23) (ha : r = .area → out ≤ 2 ^ 22) (hq : IsTable L r inn out q)
    (ht : ∀ i, i < out → (q.bound i).size ≤ 21000) : NoOverflow16 q out := by
  intro i hi
  have hr' : Averages L r := averages_of2 hr
  have hnn := table_nonneg hr' h1 h2 ha hq
  rw [sum_add_distrib, sum_congr rfl fun k _ => abs_of_nonneg (hnn i k)]
  have := quantised_near hr h1 h2 ha hq hi
  have h3 : ((q.bound i).size : ℚ) ≤ 21000 := by exact_mod_cast ht i hi
  rw [abs_le] at this
  simp only [sum_const, card_range, nsmul_eq_mul, mul_one]
  have h4 : ((∑ k ∈ range (q.bound i).size, q.weight i k : ℤ) : ℚ) + (q.bound i).size < 65472 := by
    linarith [this.2]
  exact_mod_cast h4

example : ∃ q, IsTable demoLib .quadric 20000 7 q ∧ NoOverflow16 q 7 := by
  obtain ⟨fw, e, v, s⟩ := table_exists demoLib .quadric (inn := 20000) (out := 7) (by norm_num) (by norm_num) (by simp)
  refine ⟨_, ⟨fw, e, rfl⟩, C115_low_precision (by decide) (by norm_num) (by norm_num) (by simp) ⟨fw, e, rfl⟩ ?_⟩
  intro i hi
  have := (s.q_valid (ρ := F32.rnd) v).inside i hi
  omega

/-- The window sizes are at most 124 taps. -/
def Taps124 (q : FilterWeights ℤ) (out : ℕ) : Prop := ∀ i, i < out → (q.bound i).size ≤ 124

/-- **C117.** A uniform 8-bit image of value `v`, resized with a support-two averaging filter whose
windows have at most 124 taps (downscaling by less than 62), becomes an image of samples `v`, except
that a vertical pass may give `v - 1`. -/
theorem C117_flat_u8 {W N v : ℕ} {L : Lib} {r : ResamplingFunction} {store into : Image ℕ}
    (hr : r ∈ averaging2) (h : AcceptedCall W N r store into) (hb : ∀ v ∈ store.buffer, v ≤ 255)
    (hflat : ∀ y x c, y < store.height → x < store.width → c < N →
      sample store.buffer (store.strideOf N) N y x c = some v)
    (ht : BothTables L r store into Taps124) :
    ∃ out, genericResize W N (formatU8 N) L r store into = some (.ok (), out) ∧
      ∀ y x c, y < into.height → x < into.width → c < N →
        sample out.buffer (into.strideOf N) N y x c = some v ∨
          (store.height ≠ into.height ∧ 1 ≤ v ∧ sample out.buffer (into.strideOf N) N y x c = some (v - 1)) := by
  have hr' : Averages L r := averages_of2 hr
  obtain ⟨_, _, c3, _⟩ := checkResize_ok.1 h.checked
  have hA : Accepted W N L r store into := h.u8 hr' hb
  obtain ⟨qv, qh, out, tv, th, _, _, o1, _⟩ := C21_separable hA
  have hv : v ≤ 255 := by
    have hN := h.channels.1
    have := hflat 0 0 0 c3.2.1 c3.1 (by omega)
    unfold sample at this
    exact hb v (List.mem_of_getElem? this)
  exact ⟨out, o1, C30_flat_partial hA hv hflat tv th
    (fun i hi => near64 hr c3.2.1 h.small.2 (fun a => (h.area a).2) tv (ht.1 _ tv) hi)
    (fun i hi => near64 hr c3.1 h.small.1 (fun a => (h.area a).1) th (ht.2 _ th) hi) o1⟩

/-! ### C118: extreme downscaling -/

theorem fold_ones : ∀ (n : ℕ) (s : ℕ), s + n ≤ 2 ^ 24 →
    (List.replicate n (1 : ℚ)).foldl (fun s w => F32.rnd (s + w)) s = ((s + n : ℕ) : ℚ)
  | 0, s, _ => by simp
  | n + 1, s, h => by
    rw [List.replicate_succ, List.foldl_cons]
    have e : F32.rnd ((s : ℚ) + 1) = ((s + 1 : ℕ) : ℚ) := by
      have := RoundOK.rnd.nat (n := s + 1) (by omega)
      push_cast at this ⊢; exact this
    rw [e, fold_ones n (s + 1) (by omega)]
    push_cast; ring

/-- The table of `Box` for one destination pixel: one window over the whole source, equal weights. -/
theorem box_to_one {L : Lib} {n : ℕ} {fw : FilterWeights ℚ} (h1 : 1 ≤ n) (h2 : n ≤ 2 ^ 23)
    (e : tableOf L .box n 1 = some fw) :
    fw.bound 0 = ⟨0, n⟩ ∧ ∀ k, k < n → fw.weight 0 k = F32.rnd (F32.rnd (1 / n)) := by
  set f := filterOf F32.rnd L .box with hf
  have hρn : F32.rnd (n : ℚ) = n := RoundOK.rnd.nat (by omega)
  have one : F32.rnd ((1 : ℕ) : ℚ) = 1 := by
    have := RoundOK.rnd.one
    simpa using this
  have hn1 : (1 : ℚ) ≤ n := by exact_mod_cast h1
  have hsc : wScale F32.rnd n 1 = n := by unfold wScale; rw [hρn, one, div_one, hρn]
  have hcut : wCutoff F32.rnd f n 1 = n := by
    unfold wCutoff
    have : f.isResizable = true := rfl
    rw [if_pos this, hsc, max_eq_left hn1]
  have hks : wKernelSize F32.rnd f n 1 = 2 * n := by
    unfold wKernelSize
    rw [hcut]
    have e1 : f.minKernelSize * (n : ℚ) = ((2 * n : ℕ) : ℚ) := by rw [hf]; simp [filterOf, Filter.new]
    rw [e1, RoundOK.rnd.nat (by omega)]
    unfold F32.round F32.toUsize
    rw [if_pos (by positivity)]
    have : ⌊((2 * n : ℕ) : ℚ) + 1 / 2⌋ = ((2 * n : ℕ) : ℤ) := by
      rw [Int.floor_eq_iff]; push_cast; constructor <;> linarith
    rw [this]; rfl
  have hrad : wRadius F32.rnd f n 1 = n := by
    unfold wRadius
    rw [hks, RoundOK.rnd.nat (by omega)]
    have : ((2 * n : ℕ) : ℚ) / 2 = n := by push_cast; ring
    rw [this, hρn]
  have hcen : wCenter F32.rnd n 1 0 = (n : ℚ) / 2 := by
    unfold wCenter
    rw [hsc, hρn]
    have z : F32.rnd ((0 : ℕ) : ℚ) = 0 := by
      have := RoundOK.rnd.zero
      simpa using this
    rw [z, zero_add]
    have hh : F32.rnd (1 / 2) = 1 / 2 := by
      have := RoundOK.rnd.half 1 (by norm_num)
      push_cast at this; exact this
    rw [hh]
    have e1 : (1 / 2 : ℚ) * n = ((n : ℤ) : ℚ) / 2 := by push_cast; ring
    rw [e1, RoundOK.rnd.half _ (by rw [abs_of_nonneg (by omega)]; exact_mod_cast (by omega : n ≤ 2 ^ 24))]
    push_cast
    exact min_eq_left (by linarith)
  have hst : wStart F32.rnd f n 1 0 = 0 := by
    unfold wStart
    rw [hcen, hrad]
    have : ⌊F32.rnd ((n : ℚ) / 2 - n)⌋ ≤ 0 := by
      have := Int.floor_mono (RoundOK.rnd.nonpos (show (n : ℚ) / 2 - n ≤ 0 by linarith))
      simpa using this
    unfold F32.toUsize; omega
  have hend : wEnd F32.rnd f n 1 0 = n := by
    unfold wEnd
    rw [hst, hcen, hrad, hks, hρn]
    have z : F32.rnd ((0 : ℕ) : ℚ) = 0 := by
      have := RoundOK.rnd.zero
      simpa using this
    rw [z, zero_add, RoundOK.rnd.nat (by omega : 2 * n ≤ 2 ^ 24), RoundOK.rnd.nat (by omega : 2 * n ≤ 2 ^ 24)]
    have a : (n : ℚ) ≤ F32.rnd ((n : ℚ) / 2 + n) := by
      have := RoundOK.rnd.mono (show (n : ℚ) ≤ (n : ℚ) / 2 + n by linarith)
      rwa [hρn] at this
    have b : (n : ℚ) ≤ (⌈F32.rnd ((n : ℚ) / 2 + n)⌉ : ℚ) := le_trans a (Int.le_ceil _)
    have c : (n : ℚ) ≤ ((2 * n : ℕ) : ℚ) := by push_cast; linarith
    rw [min_eq_right (le_min b c)]
    unfold F32.toUsize
    simp
  obtain ⟨fw', e', v, t⟩ := generateWeights_spec RoundOK.rnd (filterOf_ok L .box) (out := 1) h1 h2
    (fun hA => by simp [filterOf, Filter.new] at hA)
  unfold tableOf at e
  rw [e'] at e
  obtain rfl := Option.some.inj e
  rw [← hf] at t
  rcases t with ⟨_, t⟩ | ⟨⟨hA, _⟩, _⟩
  · refine ⟨?_, ?_⟩
    · rw [t.bound (by norm_num)]
      unfold genBound
      rw [hst, hend]; rfl
    · intro k hk
      rw [t.weight (by norm_num) (by rw [hks]; omega)]
      have hraw : rawRow F32.rnd f n 1 0 = List.replicate n 1 := by
        unfold rawRow
        rw [hst, hend]
        refine List.ext_getElem (by simp) fun j a b => ?_
        simp only [List.getElem_map, List.getElem_replicate]
        rfl
      unfold genRow
      rw [hraw]
      have hpre : preRow F32.rnd f (List.replicate n 1) = (List.replicate n 1, (n : ℚ)) := by
        have hE : f.isEwa = false := rfl
        unfold preRow
        rw [hE]
        simp only [sumF]
        have := fold_ones n 0 (by omega)
        simp only [Nat.cast_zero, zero_add] at this
        rw [this]
      rw [hpre]
      unfold normRow
      rw [if_pos (by simp only; linarith)]
      simp only [List.map_replicate, one_mul]
      rw [List.getD_eq_getElem?_getD, List.getElem?_replicate, if_pos hk]
      rfl
  · simp [hf, filterOf, Filter.new] at hA

theorem box_quantised {L : Lib} {n : ℕ} {q : FilterWeights ℤ} (h1 : 1 ≤ n) (h2 : n ≤ 2 ^ 23)
    (hq : IsTable L .box n 1 q) :
    q.bound 0 = ⟨0, n⟩ ∧ ∀ k, k < n → q.weight 0 k = quantise F32.rnd (F32.rnd (F32.rnd (1 / n))) := by
  obtain ⟨fw, e, rfl⟩ := hq
  obtain ⟨a, b⟩ := box_to_one h1 h2 e
  obtain ⟨fw', e', v, s⟩ := table_exists L .box (out := 1) h1 h2 (by simp)
  rw [e] at e'
  obtain rfl := Option.some.inj e'
  refine ⟨a, fun k hk => ?_⟩
  rw [s.q_weight RoundOK.rnd v, b k hk]

/-- What `Box` makes of a row of `n` pixels when scaled to one pixel: `Q` is the quantised weight. -/
theorem box_row_value {W N : ℕ} {L : Lib} {store into : Image ℕ} (h : AcceptedCall W N .box store into)
    (hb : ∀ v ∈ store.buffer, v ≤ 255) (hh : store.height = into.height) (hw : into.width = 1) :
    ∃ out, genericResize W N (formatU8 N) L .box store into = some (.ok (), out) ∧
      ∀ y c, y < into.height → c < N →
        sample out.buffer (into.strideOf N) N y 0 c = some (fixedRound 255 store.width
          (fun _ => quantise F32.rnd (F32.rnd (F32.rnd (1 / store.width))))
          (fun k => pxD 0 store.buffer (store.strideOf N) N y k c)) := by
  obtain ⟨_, _, c3, _⟩ := checkResize_ok.1 h.checked
  obtain ⟨qv, qh, out, tv, th, o1, o2, o3, o4⟩ := C115_resize_u8 (L := L) (Or.inl (by decide)) h hb
  rw [hw] at th
  obtain ⟨b1, b2⟩ := box_quantised c3.1 h.small.1 th
  refine ⟨out, o1, fun y c hy hc => ?_⟩
  rw [o4 y 0 c hy (by omega) hc]
  have hne : store.width ≠ into.width := by have := h.sizes; tauto
  refine congrArg some ?_
  unfold separable
  simp only
  rw [if_neg hne, b1]
  simp only [if_pos hh]
  unfold fixedRound
  congr 2
  unfold wsum
  refine sum_congr rfl fun k hk => ?_
  simp only
  rw [b2 k (mem_range.1 hk), Nat.zero_add]

/-- **C118 fails**: `Box`, an 8-bit image at least 65537 pixels wide, scaled to a width of one: the result
is black, whatever the picture. (Each weight, `1 / width`, is quantised to zero.) -/
theorem C118_black {W N : ℕ} {L : Lib} {store into : Image ℕ} (h : AcceptedCall W N .box store into)
    (hb : ∀ v ∈ store.buffer, v ≤ 255) (hh : store.height = into.height) (hw : into.width = 1)
    (hbig : 65537 ≤ store.width) :
    ∃ out, genericResize W N (formatU8 N) L .box store into = some (.ok (), out) ∧
      ∀ y c, y < into.height → c < N → sample out.buffer (into.strideOf N) N y 0 c = some 0 := by
  obtain ⟨out, o1, o2⟩ := box_row_value (L := L) h hb hh hw
  refine ⟨out, o1, fun y c hy hc => ?_⟩
  rw [o2 y c hy hc]
  have hq : quantise F32.rnd (F32.rnd (F32.rnd (1 / (store.width : ℚ)))) = 0 := by
    have a : (1 : ℚ) / store.width ≤ 1 / 65537 :=
      one_div_le_one_div_of_le (by norm_num) (by exact_mod_cast hbig)
    have b := quantise_mono RoundOK.rnd (F32.rnd_mono (F32.rnd_mono a))
    have c := quantise_nonneg RoundOK.rnd (F32.rnd_nonneg (F32.rnd_nonneg
      (show (0 : ℚ) ≤ 1 / store.width by positivity)))
    have d : quantise F32.rnd (F32.rnd (F32.rnd (1 / 65537))) = 0 := by decide +kernel
    omega
  rw [hq]
  refine congrArg some ?_
  unfold fixedRound wsum
  simp only [zero_mul, sum_const_zero]
  decide +kernel

/-- **C118 fails the other way too**: at 65536 pixels each weight is rounded up to twice its value, and
the result is twice as bright: a uniform image of value `v` becomes `min (2 v) 255`. -/
theorem C118_doubled {W N v : ℕ} {L : Lib} {store into : Image ℕ} (h : AcceptedCall W N .box store into)
    (hb : ∀ v ∈ store.buffer, v ≤ 255) (hh : store.height = into.height) (hw : into.width = 1)
    (hbig : store.width = 65536)
    (hflat : ∀ y x c, y < store.height → x < store.width → c < N →
      sample store.buffer (store.strideOf N) N y x c = some v) :
    ∃ out, genericResize W N (formatU8 N) L .box store into = some (.ok (), out) ∧
      ∀ y c, y < into.height → c < N →
        sample out.buffer (into.strideOf N) N y 0 c = some (min (2 * v) 255) := by
  obtain ⟨out, o1, o2⟩ := box_row_value (L := L) h hb hh hw
  refine ⟨out, o1, fun y c hy hc => ?_⟩
  rw [o2 y c hy hc]
  have hq : quantise F32.rnd (F32.rnd (F32.rnd (1 / (store.width : ℚ)))) = 1 := by
    rw [hbig]
    push_cast
    decide +kernel
  rw [hq]
  refine congrArg some ?_
  unfold fixedRound
  have hs : wsum store.width (fun _ => 1) (fun k => ((pxD 0 store.buffer (store.strideOf N) N y k c : ℕ) : ℤ)) =
      2 * v * 32768 := by
    unfold wsum
    rw [sum_congr rfl (g := fun _ => (v : ℤ)) fun k hk => ?_]
    · rw [sum_const, card_range, nsmul_eq_mul, hbig]; push_cast; ring
    · rw [mem_range] at hk
      unfold pxD
      simp only
      rw [hflat y k c (by omega) hk hc]
      simp
  rw [hs]
  unfold fixRound clamp
  have e : ⌊((2 * (v : ℤ) * 32768 : ℤ) : ℚ) / 32768 + 1 / 2⌋ = 2 * (v : ℤ) := by
    rw [Int.floor_eq_iff]; push_cast
    constructor <;> linarith
  rw [e]
  omega

theorem Demo.wideCall (n : ℕ) (h1 : 2 ≤ n) (h2 : n ≤ 2 ^ 20) : AcceptedCall (2 ^ 64) 1 .box
    ⟨List.replicate n 200, 1, n, 1, n, 8⟩ ⟨[7], 1, 1, 1, 1, 8⟩ where
  channels := by decide
  checked := by
    rw [checkResize_ok]
    refine ⟨by decide, ?_, ⟨by show 0 < n; omega, by show 0 < 1; decide, by decide, by decide⟩, ?_,
      by show checkImageSizeOverflow (2 ^ 64) 1 1 1 = false; decide, by simp⟩
    · rw [validate_iff]
      unfold LayoutOK
      simp
    · show checkImageSizeOverflow (2 ^ 64) n 1 1 = false
      unfold checkImageSizeOverflow
      have e : n % 2 ^ 64 = n := Nat.mod_eq_of_lt (by omega)
      simp [overflowingMul]
      omega
  filter := by decide
  sizes := Or.inl (by show n ≠ 1; omega)
  small := ⟨by show n ≤ 2 ^ 23; omega, by show 1 ≤ 2 ^ 23; decide⟩
  area := by simp
  fits := by show n * 1 * 1 < 2 ^ 64; omega

/-- 100000 pixels of value 200: black; 65536 pixels of value 200: white. -/
example : ∃ out, genericResize (2 ^ 64) 1 (formatU8 1) demoLib .box ⟨List.replicate 100000 200, 1, 100000, 1, 100000, 8⟩
    ⟨[7], 1, 1, 1, 1, 8⟩ = some (.ok (), out) ∧ sample out.buffer 1 1 0 0 0 = some 0 := by
  obtain ⟨out, h1, h2⟩ := C118_black (L := demoLib) (Demo.wideCall 100000 (by norm_num) (by norm_num))
    (fun v hv => by rw [(List.mem_replicate.1 hv).2]; norm_num) rfl rfl (by show 65537 ≤ 100000; norm_num)
  exact ⟨out, h1, h2 0 0 (by show 0 < 1; norm_num) (by norm_num)⟩

example : ∃ out, genericResize (2 ^ 64) 1 (formatU8 1) demoLib .box ⟨List.replicate 65536 200, 1, 65536, 1, 65536, 8⟩
    ⟨[7], 1, 1, 1, 1, 8⟩ = some (.ok (), out) ∧ sample out.buffer 1 1 0 0 0 = some 255 := by
  have hf : ∀ y x c, y < 1 → x < 65536 → c < 1 →
      sample (List.replicate 65536 200) 65536 1 y x c = some 200 := by
    intro y x c hy' hx' hc
    have : y = 0 := by omega
    have : c = 0 := by omega
    subst y c
    unfold sample
    rw [List.getElem?_replicate, if_pos]
    omega
  obtain ⟨out, h1, h2⟩ := C118_doubled (v := 200) (L := demoLib) (Demo.wideCall 65536 (by norm_num) (by norm_num))
    (fun v hv => by rw [(List.mem_replicate.1 hv).2]; norm_num) rfl rfl rfl hf
  exact ⟨out, h1, h2 0 0 (by show 0 < 1; norm_num) (by norm_num)⟩

/-- A uniform 60 x 3 image scaled to 2 x 5. -/
example : ∃ out, genericResize (2 ^ 64) 1 (formatU8 1) demoLib .bilinear ⟨List.replicate 180 77, 1, 60, 3, 60, 8⟩
    ⟨List.replicate 10 0, 1, 2, 5, 2, 8⟩ = some (.ok (), out) ∧
    (sample out.buffer 2 1 1 1 0 = some 77 ∨ sample out.buffer 2 1 1 1 0 = some 76) := by
  have hc : AcceptedCall (2 ^ 64) 1 .bilinear ⟨List.replicate 180 77, 1, 60, 3, 60, 8⟩
      ⟨List.replicate 10 0, 1, 2, 5, 2, 8⟩ := by constructor <;> decide +kernel
  have ht : BothTables demoLib .bilinear ⟨List.replicate 180 77, 1, 60, 3, 60, 8⟩
      ⟨List.replicate 10 0, 1, 2, 5, 2, 8⟩ Taps124 := by
    constructor
    · rintro q hq
      obtain ⟨fw, e, rfl⟩ := hq
      have v := (table_exists demoLib .bilinear (inn := 3) (out := 5) (by norm_num) (by norm_num) (by simp))
      obtain ⟨fw', e', v, _⟩ := v
      intro i hi
      have : (numericalApproximation F32.rnd fw).bound i = fw'.bound i := by
        have e2 : some fw = some fw' := e.symm.trans e'
        rw [Option.some.inj e2]; rfl
      rw [this]
      have := v.inside i hi
      omega
    · rintro q hq
      obtain ⟨fw, e, rfl⟩ := hq
      have v := (table_exists demoLib .bilinear (inn := 60) (out := 2) (by norm_num) (by norm_num) (by simp))
      obtain ⟨fw', e', v, _⟩ := v
      intro i hi
      have : (numericalApproximation F32.rnd fw).bound i = fw'.bound i := by
        have e2 : some fw = some fw' := e.symm.trans e'
        rw [Option.some.inj e2]; rfl
      rw [this]
      have := v.inside i hi
      omega
  have hf : ∀ y x c, y < 3 → x < 60 → c < 1 → sample (List.replicate 180 77) 60 1 y x c = some 77 := by
    intro y x c hy hx hc
    unfold sample
    rw [List.getElem?_replicate, if_pos]
    omega
  obtain ⟨out, h1, h2⟩ := C117_flat_u8 (v := 77) (by decide) hc
    (fun v hv => by rw [(List.mem_replicate.1 hv).2]; norm_num) hf ht
  refine ⟨out, h1, ?_⟩
  rcases h2 1 1 0 (by decide) (by decide) (by decide) with h | ⟨_, _, h⟩
  · exact Or.inl h
  · exact Or.inr h

end PicScale
