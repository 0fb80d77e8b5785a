import Verif.SpecRinging
import Verif.Lemmas.RingingKernels
import Verif.Props.WeightBounds
import Verif.Props.Neon

/-!
Property theorem C263: no accumulator overflows with the cubic filters, whose kernels have negative lobes, with the
fixed splines, and with any filter when an image is enlarged.
-/

namespace PicScale

open Finset F32 Spec

theorem cubics_ringing {L : Lib} {r : ResamplingFunction} (hr : Cubics L r) : Ringing (filterOf F32.rnd L r) := by
  have mk : ∀ {k : ℚ → ℚ}, RingingKernel k → Ringing (Filter.new k 2 false) := fun h =>
    ⟨rfl, rfl, rfl, h.rep, h.inner, h.outer, h.le_two, h.centre⟩
  rcases hr with hr | ⟨hr, hL⟩
  · simp only [cubics, List.mem_cons, List.not_mem_nil, or_false] at hr
    rcases hr with rfl | rfl | rfl | rfl | rfl | rfl
    · exact mk ringing_cubic
    · exact mk ringing_mitchell
    · exact mk ringing_catmull
    · exact mk ringing_hermite
    · exact mk ringing_bSpline
    · exact mk ringing_bicubic
  · simp only [List.mem_cons, List.not_mem_nil, or_false] at hr
    rcases hr with rfl | rfl
    · exact mk (ringing_robidoux hL).1
    · exact mk (ringing_robidoux hL).2

/-- A window of at most eight taps. -/
theorem few_taps {L : Lib} {r : ResamplingFunction} {inn out : ℕ} {q : FilterWeights ℤ}
    (h1 : 1 ≤ inn) (h2 : inn ≤ 2 ^ 23) (ha : r = .area → out ≤ 2 ^ 22) (hq : IsTable L r inn out q)
    (hk : wKernelSize F32.rnd (filterOf F32.rnd L r) inn out ≤ 8) {i : ℕ} (hi : i < out) :
    ∑ k ∈ range (q.bound i).size, |q.weight i k| ≤ 2 ^ 18 := by
  obtain ⟨fw, e, rfl⟩ := hq
  obtain ⟨fw', e', v, t⟩ := generateWeights_spec RoundOK.rnd (filterOf_ok L r) (out := out) h1 h2
    (fun hA i hi => areaSx_rnd h1 h2 (ha (filterOf_area L r hA)) hi)
  unfold tableOf at e
  rw [e'] at e
  obtain rfl := Option.some.inj e
  have hsz : ((numericalApproximation F32.rnd fw').bound i).size ≤ 8 := by
    have := v.size_le i hi
    rcases t with ⟨_, t⟩ | ⟨_, t⟩ <;> rw [t.aligned] at this
    · exact le_trans this hk
    · exact le_trans this (by norm_num)
  have s : PlainShape fw' out := by
    rcases t with ⟨_, t⟩ | ⟨_, t⟩ <;> exact ⟨by rw [t.kernel, t.aligned], t.distinct⟩
  have : ∑ k ∈ range ((numericalApproximation F32.rnd fw').bound i).size, |(numericalApproximation F32.rnd fw').weight i k| ≤
      ∑ k ∈ range ((numericalApproximation F32.rnd fw').bound i).size, (32768 : ℤ) := by
    refine sum_le_sum fun k _ => ?_
    rw [s.q_weight RoundOK.rnd v, abs_le]
    have := quantise_range (ρ := F32.rnd) (fw'.weight i k)
    omega
  rw [sum_const, card_range, nsmul_eq_mul] at this
  have h3 : ((((numericalApproximation F32.rnd fw').bound i).size : ℕ) : ℤ) ≤ 8 := by exact_mod_cast hsz
  refine le_trans this ?_
  omega

theorem kernelSize_one {L : Lib} {r : ResamplingFunction} {inn out : ℕ}
    (hc : wCutoff F32.rnd (filterOf F32.rnd L r) inn out = 1) : wKernelSize F32.rnd (filterOf F32.rnd L r) inn out ≤ 8 := by
  unfold wKernelSize
  rw [hc, mul_one]
  cases r <;> simp only [filterOf, Filter.new, Filter.newWithArea, Filter.newWithFixedKernel, Filter.newWithWindow] <;>
    decide +kernel

theorem cutoff_enlarge {f : Filter} {inn out : ℕ} (h1 : 1 ≤ inn) (h : inn ≤ out) : wCutoff F32.rnd f inn out = 1 := by
  unfold wCutoff
  split_ifs
  · refine max_eq_right ?_
    unfold wScale
    have a : F32.rnd (inn : ℚ) ≤ F32.rnd (out : ℚ) := RoundOK.rnd.mono (by exact_mod_cast h)
    have b : 1 ≤ F32.rnd (inn : ℚ) := RoundOK.rnd.one_le (by exact_mod_cast h1)
    exact RoundOK.rnd.le_one (by rw [div_le_one (by linarith)]; exact a)
  · rfl

theorem cutoff_fixed {L : Lib} {r : ResamplingFunction} {inn out : ℕ} (hr : r ∈ fixedWindows) :
    wCutoff F32.rnd (filterOf F32.rnd L r) inn out = 1 := by
  simp only [fixedWindows, List.mem_cons, List.not_mem_nil, or_false] at hr
  unfold wCutoff
  rcases hr with rfl | rfl | rfl <;> simp [filterOf, Filter.newWithFixedKernel]

/-- **C263, weights.** The absolute quantised weights of a window add up to at most eight times the unit `2^15`. -/
theorem C263_weights {L : Lib} {r : ResamplingFunction} {inn out : ℕ} {q : FilterWeights ℤ} (hr : Tame L r inn out)
    (h1 : 1 ≤ inn) (h2 : inn ≤ 2 ^ 23) (ha : r = .area → out ≤ 2 ^ 22) (hq : IsTable L r inn out q) {i : ℕ}
    (hi : i < out) : ∑ k ∈ range (q.bound i).size, |q.weight i k| ≤ 2 ^ 18 := by
  rcases hr with hr | ⟨hr, h15⟩ | hr | hr
  · exact weights_bounded hr h1 h2 ha hq hi
  · have hf := cubics_ringing hr
    obtain ⟨fw, e, rfl⟩ := hq
    obtain ⟨fw', e', v, t⟩ := generateWeights_spec RoundOK.rnd (filterOf_ok L r) (out := out) h1 h2
      (fun hA i hi => areaSx_rnd h1 h2 (ha (filterOf_area L r hA)) hi)
    unfold tableOf at e
    rw [e'] at e
    obtain rfl := Option.some.inj e
    rcases t with ⟨_, t⟩ | ⟨⟨hA, _⟩, _⟩
    · have s : PlainShape fw' out := ⟨by rw [t.kernel, t.aligned], t.distinct⟩
      have hb : ((numericalApproximation F32.rnd fw').bound i) = fw'.bound i := rfl
      have e2 : ∑ k ∈ range ((numericalApproximation F32.rnd fw').bound i).size, |(numericalApproximation F32.rnd fw').weight i k| =
          ((genRow F32.rnd (filterOf F32.rnd L r) inn out i).map fun v => |quantise F32.rnd v|).sum := by
        rw [hb, t.bound hi, ← t.rowLen i hi, ← map_sum_range]
        refine sum_congr rfl fun k hk => ?_
        rw [mem_range] at hk
        rw [s.q_weight RoundOK.rnd v, t.weight hi (lt_of_lt_of_le hk (t.rowLe i hi))]
      rw [e2]
      have hin := v.inside i hi
      have hpos := v.size_pos i hi
      rw [t.bound hi] at hin hpos
      refine ringing_row hf h1 h15 (by omega) i ?_
      have a1 : wStart F32.rnd (filterOf F32.rnd L r) inn out i +
        (wEnd F32.rnd (filterOf F32.rnd L r) inn out i - wStart F32.rnd (filterOf F32.rnd L r) inn out i) ≤ inn := hin
      omega
    · exfalso
      have := filterOf_area L r hA
      subst this
      rcases hr with hr | ⟨hr, _⟩ <;> revert hr <;> decide
  · exact few_taps h1 h2 ha hq (kernelSize_one (cutoff_fixed hr)) hi
  · exact few_taps h1 h2 ha hq (kernelSize_one (cutoff_enlarge h1 hr)) hi

/-- **C263.** With a cubic filter and at most 32768 source pixels, with a fixed spline, or with any filter if the image
is not reduced, the 32-bit accumulators of the integer code paths cannot overflow, for 8-bit, 10-bit and 12-bit samples. -/
theorem C263_no_overflow {L : Lib} {r : ResamplingFunction} {inn out : ℕ} {q : FilterWeights ℤ} (hr : Tame L r inn out)
    (h1 : 1 ≤ inn) (h2 : inn ≤ 2 ^ 23) (ha : r = .area → out ≤ 2 ^ 22) (hq : IsTable L r inn out q) {hi : ℕ}
    (hhi : hi ≤ 4095) : NoOverflow q out hi ∧ NoOverflow30At q out hi := by
  have h3 : (hi : ℤ) ≤ 4095 := by exact_mod_cast hhi
  constructor <;>
  · intro i hi
    have := C263_weights hr h1 h2 ha hq hi
    have h4 : 0 ≤ ∑ k ∈ range (q.bound i).size, |q.weight i k| := sum_nonneg fun _ _ => abs_nonneg _
    nlinarith

/-- Both dimensions of a resize are tame. -/
def TameCall (L : Lib) (r : ResamplingFunction) (store into : Image ℕ) : Prop :=
  Tame L r store.height into.height ∧ Tame L r store.width into.width

/-- Every hypothesis about accumulators in the theorems about 8-bit resizes holds. -/
theorem AcceptedCall.tame {W N : ℕ} {L : Lib} {r : ResamplingFunction} {store into : Image ℕ}
    (hr : TameCall L r store into) (h : AcceptedCall W N r store into) (hb : ∀ v ∈ store.buffer, v ≤ 255) :
    Accepted W N L r store into ∧ AcceptedX86 W N L r store into := by
  obtain ⟨_, _, c3, _⟩ := checkResize_ok.1 h.checked
  exact ⟨⟨h.channels, h.checked, h.filter, h.sizes, h.small, h.area, h.fits, hb,
    fun q hq => (C263_no_overflow hr.1 c3.2.1 h.small.2 (fun a => (h.area a).2) hq (by norm_num)).1,
    fun q hq => (C263_no_overflow hr.2 c3.1 h.small.1 (fun a => (h.area a).1) hq (by norm_num)).1⟩,
    ⟨h, hb, fun q hq => (C263_no_overflow hr.1 c3.2.1 h.small.2 (fun a => (h.area a).2) hq (by norm_num)).2,
    fun q hq => (C263_no_overflow hr.2 c3.1 h.small.1 (fun a => (h.area a).1) hq (by norm_num)).2⟩⟩

/-- The same for images of at most 12 bits. -/
theorem AcceptedCall16.tame {W N : ℕ} {L : Lib} {r : ResamplingFunction} {store into : Image ℕ}
    (hr : TameCall L r store into) (h : AcceptedCall16 W N r store into) (hd : into.bitDepth ≤ 12)
    (hb : ∀ v ∈ store.buffer, v ≤ 2 ^ into.bitDepth - 1) : AcceptedLb W N L r store into := by
  obtain ⟨_, _, c3, _⟩ := checkResize_ok.1 h.checked
  have hd' : 2 ^ into.bitDepth - 1 ≤ 4095 := by
    have := Nat.pow_le_pow_right (show 0 < 2 by norm_num) hd
    omega
  exact ⟨h, hd, hb,
    fun q hq => (C263_no_overflow hr.1 c3.2.1 h.small.2 (fun a => (h.area a).2) hq hd').2,
    fun q hq => (C263_no_overflow hr.2 c3.1 h.small.1 (fun a => (h.area a).1) hq hd').2⟩

/-- The same for packed 10-bit images. -/
theorem Call30.tame {W : ℕ} {L : Lib} {r : ResamplingFunction} {src dst : Image ℕ} (hr : TameCall L r src dst)
    (h : Call30 W r src dst) (hb : ∀ v ∈ src.buffer, v < 256) : Safe30 L r src dst ∧ Accepted30 W L r src dst := by
  obtain ⟨c3, _⟩ := check30_ok.1 h.checked
  have hv : ∀ q, IsTable L r src.height dst.height q → NoOverflow q dst.height 1023 ∧ NoOverflow30At q dst.height 1023 :=
    fun q hq => C263_no_overflow hr.1 c3.2.1 h.small.2 (fun a => (h.area a).2) hq (by norm_num)
  have hh : ∀ q, IsTable L r src.width dst.width q → NoOverflow q dst.width 1023 ∧ NoOverflow30At q dst.width 1023 :=
    fun q hq => C263_no_overflow hr.2 c3.1 h.small.1 (fun a => (h.area a).1) hq (by norm_num)
  exact ⟨⟨hb, fun q hq => (hv q hq).2, fun q hq => (hh q hq).2⟩,
    ⟨h.checked, h.filter, h.sizes, h.small, h.area, h.fits, hb, fun q hq => (hv q hq).1, fun q hq => (hh q hq).1⟩⟩

/-- **C263, whole 8-bit resizes.** An accepted resize of an 8-bit image with a cubic filter (up to 32768 x 32768), a fixed
spline, or any filter when the image is enlarged, returns normally, and every sample is the exact two-pass fixed point
value: nothing wraps around. -/
theorem C263_resize_u8 {W N : ℕ} {L : Lib} {r : ResamplingFunction} {store into : Image ℕ} (hr : TameCall L r store into)
    (h : AcceptedCall W N r store into) (hb : ∀ v ∈ store.buffer, v ≤ 255) :
    ∃ qv qh out, IsTable L r store.height into.height qv ∧ IsTable L r store.width into.width qh ∧
      genericResize W N (formatU8 N) L r store into = some (.ok (), out) ∧
      SameShape out into ∧ PaddingKept N into out ∧
      ∀ y x c, y < into.height → x < into.width → c < N →
        sample out.buffer (into.strideOf N) N y x c = some
          (separable store.width store.height into.width into.height
            (fun i => (qv.bound i).start)
            (fun i p => fixedFloor 255 (qv.bound i).size (fun k => qv.weight i k) p)
            (fun i => (qh.bound i).start)
            (fun i p => fixedRound 255 (qh.bound i).size (fun k => qh.weight i k) p)
            (fun y x => pxD 0 store.buffer (store.strideOf N) N y x c) y x) := by
  obtain ⟨qv, qh, out, a, b, _, _, c, d, e, f⟩ := C21_separable (h.tame hr hb).1
  exact ⟨qv, qh, out, a, b, c, d, e, f⟩

/-- Example: a 900 x 40 image reduced to 2 x 3 with the bicubic filter; windows of 900 taps. -/
theorem Demo.bicubicCall : AcceptedCall (2 ^ 64) 1 .bicubic ⟨List.replicate 36000 200, 1, 900, 40, 900, 8⟩
    ⟨List.replicate 6 0, 1, 2, 3, 2, 8⟩ := by
  constructor <;> decide +kernel

theorem Demo.bicubicTame : TameCall demoLib .bicubic ⟨List.replicate 36000 200, 1, 900, 40, 900, 8⟩
    ⟨List.replicate 6 0, 1, 2, 3, 2, 8⟩ :=
  ⟨Or.inr (Or.inl ⟨Or.inl (by decide), by show 40 ≤ 2 ^ 15; norm_num⟩),
    Or.inr (Or.inl ⟨Or.inl (by decide), by show 900 ≤ 2 ^ 15; norm_num⟩)⟩

example : ∃ out, genericResize (2 ^ 64) 1 (formatU8 1) demoLib .bicubic ⟨List.replicate 36000 200, 1, 900, 40, 900, 8⟩
    ⟨List.replicate 6 0, 1, 2, 3, 2, 8⟩ = some (.ok (), out) := by
  obtain ⟨_, _, out, _, _, h, _⟩ := C263_resize_u8 Demo.bicubicTame Demo.bicubicCall
    (fun v hv => by rw [(List.mem_replicate.1 hv).2]; norm_num)
  exact ⟨out, h⟩

/-- On x86 the hypotheses of `C55`, `C210` … hold of the same call. -/
example : AcceptedX86 (2 ^ 64) 1 demoLib .bicubic ⟨List.replicate 36000 200, 1, 900, 40, 900, 8⟩
    ⟨List.replicate 6 0, 1, 2, 3, 2, 8⟩ :=
  (Demo.bicubicCall.tame Demo.bicubicTame (fun v hv => by rw [(List.mem_replicate.1 hv).2]; norm_num)).2

/-- A table with negative weights: 9 → 4 pixels, Catmull-Rom. -/
example : ∃ fw, generateWeights F32.rnd (filterOf F32.rnd demoLib .catmullRom) 9 4 = some fw ∧ ∃ w ∈ fw.weights, w < 0 := by
  have : (generateWeights F32.rnd (filterOf F32.rnd demoLib .catmullRom) 9 4).map
      (fun fw => fw.weights.any fun w => decide (w < 0)) = some true := by decide +kernel
  obtain ⟨fw, e, h⟩ := Option.map_eq_some_iff.1 this
  simp only [List.any_eq_true, decide_eq_true_eq] at h
  exact ⟨fw, e, h⟩

/-- Lanczos, enlarged: any library. -/
example (L : Lib) : Tame L .lanczos3 100 250 := Or.inr (Or.inr (Or.inr (by norm_num)))

end PicScale
