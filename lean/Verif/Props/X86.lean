import Verif.Lemmas.X86Resize
import Verif.Props.Accuracy
import Mathlib.Algebra.BigOperators.Field

/-!
Property theorems about 8-bit resizes with the x86 vector handlers: C52–C58.
-/

namespace PicScale

open Finset Spec

/-- A convolution resize that passes the checks. -/
structure AcceptedCall (W N : ℕ) (r : ResamplingFunction) (store into : Image ℕ) : Prop where
  channels : 1 ≤ N ∧ N ≤ 4
  checked : checkResize W N false store into = .ok ()
  filter : r ≠ .nearest
  sizes : store.width ≠ into.width ∨ store.height ≠ into.height
  small : store.width ≤ 2 ^ 23 ∧ store.height ≤ 2 ^ 23
  area : r = .area → into.width ≤ 2 ^ 22 ∧ into.height ≤ 2 ^ 22
  fits : store.width * into.height * N < W

/-- `P` holds of the quantised tables of both dimensions. -/
def BothTables (L : Lib) (r : ResamplingFunction) (store into : Image ℕ) (P : FilterWeights ℤ → ℕ → Prop) : Prop :=
  (∀ q, IsTable L r store.height into.height q → P q into.height) ∧
    (∀ q, IsTable L r store.width into.width q → P q into.width)

/-- An accepted call on byte samples whose accumulators stay below `2^30` (for example because no window
has more than 128 taps, `accumFits_of_taps`). -/
structure AcceptedX86 (W N : ℕ) (L : Lib) (r : ResamplingFunction) (store into : Image ℕ) : Prop where
  call : AcceptedCall W N r store into
  bytes : ∀ v ∈ store.buffer, v ≤ 255
  noOverflow : BothTables L r store into NoOverflow30

theorem accumFits_of_taps {L : Lib} {r : ResamplingFunction} {inn out : ℕ} {q : FilterWeights ℤ}
    (h1 : 1 ≤ inn) (h2 : inn ≤ 2 ^ 23) (ha : r = .area → out ≤ 2 ^ 22) (hq : IsTable L r inn out q)
    (ht : q.kernelSize ≤ 128) : NoOverflow30 q out := by
  obtain ⟨fw, e, rfl⟩ := hq
  obtain ⟨fw', e', v, s⟩ := table_exists L r (out := out) h1 h2 ha
  rw [e] at e'
  obtain rfl := Option.some.inj e'
  have v := s.q_valid (ρ := F32.rnd) v
  intro i hi
  have hsz : ((numericalApproximation F32.rnd fw).bound i).size ≤ 128 := by
    have := v.size_le i hi
    have e : (numericalApproximation F32.rnd fw).alignedSize = (numericalApproximation F32.rnd fw).kernelSize := rfl
    omega
  have hW := q_i16 s (by assumption)
  have : ∑ k ∈ range ((numericalApproximation F32.rnd fw).bound i).size,
      |(numericalApproximation F32.rnd fw).weight i k| ≤
      ∑ k ∈ range ((numericalApproximation F32.rnd fw).bound i).size, (32768 : ℤ) := by
    refine sum_le_sum fun k _ => ?_
    have := hW.weight i k
    rw [abs_le]; omega
  rw [sum_const, card_range, nsmul_eq_mul] at this
  have h3 : ((((numericalApproximation F32.rnd fw).bound i).size : ℕ) : ℤ) ≤ 128 := by exact_mod_cast hsz
  omega

/-- The horizontal handler does not matter if the width does not change. -/
theorem widthEq_h {cpu : Cpu} {hk hk' : HKernel} {vk : VKernel} {W N : ℕ} {L : Lib} {r : ResamplingFunction}
    {store into : Image ℕ} (h : store.width = into.width) :
    genericResize W N (formatKernels cpu hk vk N) L r store into =
      genericResize W N (formatKernels cpu hk' vk N) L r store into := by
  have e : store.height ≠ into.height → convolve W N (formatKernels cpu hk vk N) (tableOf L r) store into =
      convolve W N (formatKernels cpu hk' vk N) (tableOf L r) store into := by
    intro h2
    unfold convolve
    have hn : ¬ (store.width ≠ into.width ∧ store.height ≠ into.height) := by tauto
    rw [if_neg hn, if_pos h2, if_neg hn, if_pos h2]
    rfl
  unfold genericResize
  rw [show (formatKernels cpu hk vk N).shouldHaveBitDepth = false from rfl,
    show (formatKernels cpu hk' vk N).shouldHaveBitDepth = false from rfl]
  cases checkResize W N false store into with
  | error _ => rfl
  | ok u =>
    dsimp only
    by_cases h2 : store.height = into.height
    · rw [if_pos ⟨h, h2⟩, if_pos ⟨h, h2⟩]
    · rw [e h2]

/-! ### C52, C57: the handlers stay inside the buffers, and on CPUs that have them -/

/-- The CPU has the instructions of the handlers the call uses: everything but the RGBA "prefer speed"
path on a CPU without AVX2. -/
def CpuFits (cpu : Cpu) (s : Workload) (N : ℕ) (store into : Image ℕ) : Prop :=
  N ≤ 3 ∨ s = .preferQuality ∨ cpu.avx2 = true ∨ below8 store.width into.width = false ∨
    store.width = into.width

theorem total_kernels {cpu : Cpu} {hk : HKernel} {vk : VKernel} {W N : ℕ} {L : Lib}
    {r : ResamplingFunction} {store into : Image ℕ} (rh : cpu.runsH hk = true) (rv : cpu.runsV vk = true)
    (hf : hk.fits N) (h : AcceptedCall W N r store into) :
    ∃ out, genericResize W N (formatKernels cpu hk vk N) L r store into = some (.ok (), out) ∧
      SameShape out into ∧ PaddingKept N into out := by
  obtain ⟨c1, c2, c3, _⟩ := checkResize_ok.1 h.checked
  obtain ⟨vf, ev, Tv, Sv⟩ := table_exists L r (out := into.height) c3.2.1 h.small.2 (fun ha => (h.area ha).2)
  obtain ⟨hf', eh, Th, Sh⟩ := table_exists L r (out := into.width) c3.1 h.small.1 (fun ha => (h.area ha).1)
  obtain ⟨out, o1, o2, o3⟩ := convolve_total (W := W) (N := N) (F := formatKernels cpu hk vk N)
    (okT := fun fw out => PlainShape fw out)
    (fun src dst fw hs hd hw hdw hT hO =>
      verticalX86_total rv h.channels.1 hs hd hw hdw (hO.q_valid (ρ := F32.rnd) hT))
    (fun src dst fw hs hd hh hsw hdw hT hO =>
      horizontalX86_total rh hf hs hd hh hsw hdw (hO.q_valid (ρ := F32.rnd) hT))
    (table := tableOf L r) c2 c1 c3.1 c3.2.2.1 h.sizes h.fits ev eh Tv Th Sv Sh
  exact ⟨out, genericResize_conv h.checked h.filter h.sizes o1, o2, o3⟩

/-- **C52.** On x86, with whatever mixture of vector and scalar handlers is selected, an accepted resize
returns `Ok`: no load, store or slice of any handler is outside its buffer (it would be `none` in the
model), whatever the samples and even if accumulators overflow; and nothing outside the destination's
pixels is written. -/
theorem C52_no_oob {cpu : Cpu} {s : Workload} {W N : ℕ} {L : Lib} {r : ResamplingFunction}
    {store into : Image ℕ} (h : AcceptedCall W N r store into) (hc : CpuFits cpu s N store into) :
    ∃ out, genericResize W N (formatX86 cpu s N) L r store into = some (.ok (), out) ∧
      SameShape out into ∧ PaddingKept N into out := by
  rw [genericResize_x86]
  by_cases hw : store.width = into.width
  · rw [widthEq_h (hk' := .scalar) hw]
    exact total_kernels (by cases cpu; rfl) (selectV_runs _ _ _ _) h.channels h
  · refine total_kernels (selectH_runs _ _ h.channels _ _ _ _ ?_) (selectV_runs _ _ _ _)
      (selectH_fits _ _ h.channels _ _ _ _) h
    rcases hc with hc | hc | hc | hc | hc
    · exact Or.inl hc
    · exact Or.inr (Or.inl hc)
    · exact Or.inr (Or.inr (Or.inl hc))
    · exact Or.inr (Or.inr (Or.inr hc))
    · exact absurd hc hw

/-- **C57.** The handlers selected for an accepted call are ones the CPU can execute exactly when
`CpuFits` (the model returns `none` when an unsupported handler is run). -/
theorem C57_supported_iff {cpu : Cpu} {s : Workload} {W N : ℕ} {L : Lib} {r : ResamplingFunction}
    {store into : Image ℕ} (h : AcceptedCall W N r store into) :
    (∃ out, genericResize W N (formatX86 cpu s N) L r store into = some (.ok (), out)) ↔
      CpuFits cpu s N store into := by
  refine ⟨fun ⟨out, ho⟩ => ?_, fun hc => ?_⟩
  · by_contra hc
    unfold CpuFits at hc
    have h4 : N = 4 := by have := h.channels; omega
    have hs : s = .preferSpeed := by cases s <;> simp_all
    have ha : cpu.avx2 = false := by simpa using (not_or.1 (not_or.1 (not_or.1 hc).2).2).1
    have hb : below8 store.width into.width = true := by
      have := (not_or.1 (not_or.1 (not_or.1 (not_or.1 hc).2).2).2).1
      simpa using this
    have hw : store.width ≠ into.width := (not_or.1 (not_or.1 (not_or.1 (not_or.1 hc).2).2).2).2
    subst h4
    have hk : selectH cpu s 4 store.width into.height into.width into.height = .rgbaAvxLb := by
      show (if (cpu.avx2 = true ∨ below8 store.width into.width = true) ∧ s = Workload.preferSpeed then
        HKernel.rgbaAvxLb else _) = _
      rw [if_pos ⟨Or.inr hb, hs⟩]
    have hn : ∀ src dst fw, horizontalX86 cpu .rgbaAvxLb 4 src dst fw = none := by
      intro src dst fw
      unfold horizontalX86
      rw [if_neg]
      simp [Cpu.runsH, HKernel.needsAvx2, ha]
    rw [genericResize_x86, hk] at ho
    unfold genericResize at ho
    rw [show (formatKernels cpu HKernel.rgbaAvxLb (selectV cpu s store.height into.height) 4).shouldHaveBitDepth = false
      from rfl, h.checked] at ho
    simp only at ho
    rw [if_neg (by tauto), if_neg h.filter] at ho
    have hcv : convolve W 4 (formatKernels cpu HKernel.rgbaAvxLb (selectV cpu s store.height into.height) 4)
        (tableOf L r) store into = none := by
      unfold convolve
      by_cases h2 : store.height = into.height
      · rw [if_neg (by tauto), if_neg (by tauto)]
        rcases e : tableOf L r store.width into.width with _ | fw
        · rfl
        · exact hn _ _ _
      · rw [if_pos ⟨hw, h2⟩]
        rcases tempImage W 4 _ store.width into.height into.bitDepth with _ | tmp
        · rfl
        rcases tableOf L r store.height into.height with _ | vf
        · rfl
        simp only [Option.bind_eq_bind, Option.bind_some]
        rcases (formatKernels cpu HKernel.rgbaAvxLb (selectV cpu s store.height into.height) 4).vertical store tmp vf
          with _ | t
        · rfl
        rcases tableOf L r store.width into.width with _ | hf
        · rfl
        exact hn _ _ _
    rw [hcv] at ho
    exact absurd ho (by simp)
  · obtain ⟨out, h1, _⟩ := C52_no_oob (L := L) h hc
    exact ⟨out, h1⟩

/-- Examples: RGBA, both dimensions change. -/
def Demo.xsrc : Image ℕ :=
  { buffer := (List.range 48).map (fun i => i * 37 % 256), channels := 4, width := 3, height := 4, stride := 12, bitDepth := 8 }
def Demo.xdst : Image ℕ :=
  { buffer := List.replicate 42 9, channels := 4, width := 5, height := 2, stride := 21, bitDepth := 8 }

theorem Demo.xcall : AcceptedCall (2 ^ 64) 4 .bilinear Demo.xsrc Demo.xdst := by
  constructor <;> decide +kernel

example : CpuFits ⟨true, true⟩ .preferSpeed 4 Demo.xsrc Demo.xdst := Or.inr (Or.inr (Or.inl rfl))

/-- **C57 fails**: the default strategy (`PreferSpeed`) on an x86 CPU with SSE4.1 but without AVX2 runs AVX2
code for an RGBA image whose width changes by less than a factor of 8. -/
theorem C57_violated :
    AcceptedCall (2 ^ 64) 4 .bilinear Demo.xsrc Demo.xdst ∧
      selectH ⟨true, false⟩ .preferSpeed 4 3 2 5 2 = .rgbaAvxLb ∧ HKernel.rgbaAvxLb.needsAvx2 = true ∧
      ¬ ∃ out, genericResize (2 ^ 64) 4 (formatX86 ⟨true, false⟩ .preferSpeed 4) demoLib .bilinear
        Demo.xsrc Demo.xdst = some (.ok (), out) := by
  refine ⟨Demo.xcall, by decide +kernel, rfl, ?_⟩
  rw [C57_supported_iff Demo.xcall]
  unfold CpuFits
  have : below8 Demo.xsrc.width Demo.xdst.width = true := by decide +kernel
  rw [this]
  simp [Demo.xsrc, Demo.xdst]

/-! ### The values -/

/-- Every sample of an accepted x86 resize. -/
theorem x86_values {cpu : Cpu} {s : Workload} {W N : ℕ} {L : Lib} {r : ResamplingFunction}
    {store into : Image ℕ} (h : AcceptedX86 W N L r store into) (hc : CpuFits cpu s N store into) :
    ∃ qv qh out, IsTable L r store.height into.height qv ∧ IsTable L r store.width into.width qh ∧
      ValidTable qv store.height into.height ∧ ValidTable qh store.width into.width ∧
      I16Weights qv ∧ I16Weights qh ∧
      genericResize W N (formatX86 cpu s N) L r store into = some (.ok (), out) ∧
      SameShape out into ∧ PaddingKept N into out ∧
      ∀ y x c, y < into.height → x < into.width → c < N →
        sample out.buffer (into.strideOf N) N y x c = some
          (sepAbs store.width store.height into.width into.height
            (fun y x c => (selectV cpu s store.height into.height).value qv (store.width * N) y (x * N + c))
            (fun x c => (selectH cpu s N store.width into.height into.width into.height).value N qh x c) c
            (fun y x => pxD 0 store.buffer (store.strideOf N) N y x c) y x) := by
  rw [genericResize_x86]
  obtain ⟨c1, c2, c3, _⟩ := checkResize_ok.1 h.call.checked
  obtain ⟨vf, ev, Tv, Sv⟩ := table_exists L r (out := into.height) c3.2.1 h.call.small.2 (fun ha => (h.call.area ha).2)
  obtain ⟨hf', eh, Th, Sh⟩ := table_exists L r (out := into.width) c3.1 h.call.small.1 (fun ha => (h.call.area ha).1)
  have main : ∀ hk : HKernel, cpu.runsH hk = true → hk.fits N →
      ∃ out, genericResize W N (formatKernels cpu hk (selectV cpu s store.height into.height) N) L r store into =
        some (.ok (), out) ∧ SameShape out into ∧ PaddingKept N into out ∧
      ∀ y x c, y < into.height → x < into.width → c < N →
        sample out.buffer (into.strideOf N) N y x c = some
          (sepAbs store.width store.height into.width into.height
            (fun y x c => (selectV cpu s store.height into.height).value (numericalApproximation F32.rnd vf)
              (store.width * N) y (x * N + c))
            (fun x c => hk.value N (numericalApproximation F32.rnd hf') x c) c
            (fun y x => pxD 0 store.buffer (store.strideOf N) N y x c) y x) := by
    intro hk rh hft
    obtain ⟨out, o1, o2, o3, o4⟩ := convolve_abs (W := W)
      (passAbs_x86 rh (selectV_runs cpu s store.height into.height) hft) h.call.channels.1
      (table := tableOf L r) c2 c1 c3.1 c3.2.2.1 h.call.sizes h.call.fits ev eh Tv Th
      ⟨Sv, h.noOverflow.1 _ ⟨vf, ev, rfl⟩⟩ ⟨Sh, h.noOverflow.2 _ ⟨hf', eh, rfl⟩⟩ h.bytes
    exact ⟨out, genericResize_conv h.call.checked h.call.filter h.call.sizes o1, o2, o3, o4⟩
  by_cases hw : store.width = into.width
  · obtain ⟨out, o1, o2, o3, o4⟩ := main .scalar (by cases cpu; rfl) h.call.channels
    refine ⟨_, _, out, ⟨vf, ev, rfl⟩, ⟨hf', eh, rfl⟩, Sv.q_valid Tv, Sh.q_valid Th, q_i16 Sv Tv, q_i16 Sh Th,
      by rw [widthEq_h (hk' := .scalar) hw]; exact o1, o2, o3, fun y x c hy hx hcc => ?_⟩
    rw [o4 y x c hy hx hcc]
    unfold sepAbs
    simp only [if_pos hw]
  · obtain ⟨out, o1, o2, o3, o4⟩ := main _ (selectH_runs cpu s h.call.channels store.width into.height into.width into.height
      (by
        rcases hc with hc | hc | hc | hc | hc
        · exact Or.inl hc
        · exact Or.inr (Or.inl hc)
        · exact Or.inr (Or.inr (Or.inl hc))
        · exact Or.inr (Or.inr (Or.inr hc))
        · exact absurd hc hw)) (selectH_fits cpu s h.call.channels _ _ _ _)
    exact ⟨_, _, out, ⟨vf, ev, rfl⟩, ⟨hf', eh, rfl⟩, Sv.q_valid Tv, Sh.q_valid Th, q_i16 Sv Tv, q_i16 Sh Th,
      o1, o2, o3, o4⟩

theorem sep_of_abs {sw sh dw dh : ℕ} {vv : ℕ → ℕ → ℕ → (ℕ → ℕ) → ℕ} {hv : ℕ → ℕ → (ℕ → ℕ) → ℕ}
    {vs hs : ℕ → ℕ} {vvs hvs : ℕ → (ℕ → ℕ) → ℕ} {c y x : ℕ} {p : ℕ → ℕ → ℕ} (hp : ∀ y x, p y x ≤ 255)
    (hvle : ∀ y x c P, vv y x c P ≤ 255)
    (h1 : sh ≠ dh → ∀ x' P, (∀ i, P i ≤ 255) → vv y x' c P = vvs y (fun k => P (vs y + k)))
    (h2 : sw ≠ dw → ∀ P, (∀ i, P i ≤ 255) → hv x c P = hvs x (fun k => P (hs x + k))) :
    sepAbs sw sh dw dh vv hv c p y x = separable sw sh dw dh vs vvs hs hvs p y x := by
  have hcol : ∀ x', (if sh = dh then p y x' else vv y x' c (fun y' => p y' x')) =
      (if sh = dh then p y x' else vvs y (fun k => p (vs y + k) x')) := by
    intro x'
    by_cases hd : sh = dh
    · rw [if_pos hd, if_pos hd]
    · rw [if_neg hd, if_neg hd, h1 hd x' _ fun i => hp i x']
  unfold sepAbs separable
  simp only
  by_cases hd : sw = dw
  · rw [if_pos hd, if_pos hd, hcol]
  · rw [if_neg hd, if_neg hd, h2 hd]
    · congr 1
      funext k
      exact hcol _
    · intro i
      split_ifs
      · exact hp _ _
      · exact hvle _ _ _ _

theorem pxD_byte {store : Image ℕ} (h : ∀ v ∈ store.buffer, v ≤ 255) (N c : ℕ) :
    ∀ y x, pxD 0 store.buffer (store.strideOf N) N y x c ≤ 255 := fun _ _ => pxD_le255 h _ _ _ _ _

/-- The exact row arithmetic, as a formula. -/
theorem exactRow_value {N : ℕ} {q : FilterWeights ℤ} {inn out x c : ℕ} (hN : 1 ≤ N) (hc : c < N)
    (hT : ValidTable q inn out) (hx : x < out) (hW : I16Weights q) (hO : NoOverflow30 q out) {P : ℕ → ℕ}
    (hP : ∀ i, P i ≤ 255) :
    exactRow N (q.kernel x) (q.bound x) (fun i => P (i / N)) c =
      fixedRound 255 (q.bound x).size (fun k => q.weight x k) (fun k => P ((q.bound x).start + k)) := by
  unfold exactRow
  rw [← packu_exact (hO x hx) fun k _ => hP _]
  congr 3
  refine wsum_congr (fun k hk => ?_) fun k hk => ?_
  · rw [kernel_getD_lt hT hx hk]
    have := hW.weight x k
    exact i16_eq_self (by omega) (by omega)
  · dsimp only
    rw [show (((q.bound x).start + k) * N + c) / N = (q.bound x).start + k by
      rw [Nat.mul_comm, Nat.mul_add_div hN, Nat.div_eq_of_lt hc, Nat.add_zero]]
    have := hP ((q.bound x).start + k)
    rw [Nat.mod_eq_of_lt (by omega)]

/-- The low precision row arithmetic, as a formula. -/
theorem lowRow_value {N : ℕ} {q : FilterWeights ℤ} {inn out x c : ℕ} {Wt : ℕ → ℕ → ℤ} (hN : 1 ≤ N) (hc : c < N)
    (hwt : ∀ k, k < (q.bound x).size → Wt k c = i16 ((q.kernel x).getD k 0))
    (hT : ValidTable q inn out) (hx : x < out) (hW : I16Weights q) {P : ℕ → ℕ}
    (hP : ∀ i, P i ≤ 255) :
    lowRow Wt N (q.bound x) (fun i => P (i / N)) c =
      lowMachine (q.bound x).size (fun k => q.weight x k) (fun k => P ((q.bound x).start + k)) := by
  unfold lowRow lowMachine
  congr 4
  refine sum_congr rfl fun k hk => ?_
  have hk : k < (q.bound x).size := by simpa using hk
  dsimp only
  rw [hwt k hk, kernel_getD_lt hT hx hk, show (((q.bound x).start + k) * N + c) / N = (q.bound x).start + k by
      rw [Nat.mul_comm, Nat.mul_add_div hN, Nat.div_eq_of_lt hc, Nat.add_zero]]
  have := hP ((q.bound x).start + k)
  have := hW.weight x k
  rw [Nat.mod_eq_of_lt (by omega), i16_eq_self (by omega) (by omega)]

theorem lowMachine_value {n : ℕ} {q : FilterWeights ℤ} {out x : ℕ} (hx : x < out) (hn : n = (q.bound x).size)
    (hW : I16Weights q) (hO : NoOverflow16 q out) {s : ℕ → ℕ} (hP : ∀ i, s i ≤ 255) :
    lowMachine n (fun k => q.weight x k) s = fixedLow n (fun k => q.weight x k) s := by
  subst hn
  exact low_exact (fun k _ => hW.weight x k) (hO x hx) fun k _ => hP k

/-! ### C53: `PreferQuality` -/

/-- **C53** (partly). With `PreferQuality`, each pass is the fixed point sum rounded to nearest, for images with 1, 2
or 4 channels on CPUs with AVX2, and for all images on CPUs with SSE4.1 only whose rows have at most 32
bytes (or whose height does not change). -/
theorem C53_quality_partial {cpu : Cpu} {W N : ℕ} {L : Lib} {r : ResamplingFunction} {store into : Image ℕ}
    (h : AcceptedX86 W N L r store into)
    (hc : (cpu.avx2 = true ∧ (N ≠ 3 ∨ store.width = into.width)) ∨
      (cpu.avx2 = false ∧ cpu.sse41 = true ∧ (store.width * N ≤ 32 ∨ store.height = into.height))) :
    ∃ qv qh out, IsTable L r store.height into.height qv ∧ IsTable L r store.width into.width qh ∧
      ValidTable qv store.height into.height ∧ ValidTable qh store.width into.width ∧
      genericResize W N (formatX86 cpu .preferQuality N) L r store into = some (.ok (), out) ∧
      SameShape out into ∧ PaddingKept N into out ∧
      ∀ y x c, y < into.height → x < into.width → c < N →
        sample out.buffer (into.strideOf N) N y x c = some
          (separable store.width store.height into.width into.height
            (fun i => (qv.bound i).start)
            (fun i p => fixedRound 255 (qv.bound i).size (fun k => qv.weight i k) p)
            (fun i => (qh.bound i).start)
            (fun i p => fixedRound 255 (qh.bound i).size (fun k => qh.weight i k) p)
            (fun y x => pxD 0 store.buffer (store.strideOf N) N y x c) y x) := by
  obtain ⟨qv, qh, out, tv, th, Tv, Th, Wv, Wh, o1, o2, o3, o4⟩ :=
    x86_values (cpu := cpu) (s := .preferQuality) h (Or.inr (Or.inl rfl))
  refine ⟨qv, qh, out, tv, th, Tv, Th, o1, o2, o3, fun y x c hy hx hcc => ?_⟩
  rw [o4 y x c hy hx hcc]
  congr 1
  refine sep_of_abs (pxD_byte h.bytes N c) (fun _ _ _ _ => VKernel.value_le _ _ _ _ _ _) ?_ ?_
  · intro hne x' P hP
    rcases hc with ⟨ha, _⟩ | ⟨ha, hs, hr⟩
    · have : selectV cpu .preferQuality store.height into.height = .avx := by
        unfold selectV; rw [if_pos ha, if_neg (by simp)]
      rw [this]
      rfl
    · have : selectV cpu .preferQuality store.height into.height = .sse := by
        unfold selectV; rw [if_neg (by simp [ha]), if_pos hs, if_neg (by simp)]
      rw [this]
      show (if _ then _ else _) = _
      rw [if_neg]
      rcases hr with hr | hr
      · omega
      · exact absurd hr hne
  · intro hne P hP
    obtain ⟨n1, n4⟩ := h.call.channels
    have hk : selectH cpu .preferQuality N store.width into.height into.width into.height = .scalar ∨
        (selectH cpu .preferQuality N store.width into.height into.width into.height).exact := by
      interval_cases N <;> unfold selectH <;> simp only
      · split_ifs <;> simp_all [HKernel.exact]
      · split_ifs <;> simp_all [HKernel.exact]
      · rcases hc with ⟨_, hc⟩ | ⟨ha, hs, _⟩
        · exact absurd hc (by simp [hne])
        · rw [if_neg (by simp [ha]), if_pos hs]
          simp [HKernel.exact]
      · split_ifs <;> simp_all [HKernel.exact]
    have hO := h.noOverflow.2 qh th
    rcases hk with hk | hk
    · rw [hk]; rfl
    · rw [← exactRow_value n1 hcc Th hx Wh hO hP, ← HKernel.row_exact hk N]
      generalize selectH cpu .preferQuality N store.width into.height into.width into.height = k at hk
      cases k <;> first | rfl | exact absurd hk (by simp [HKernel.exact])

/-- The demo call as an accepted x86 call. -/
theorem Demo.xaccepted : AcceptedX86 (2 ^ 64) 4 demoLib .bilinear Demo.xsrc Demo.xdst := by
  refine ⟨Demo.xcall, by decide +kernel, ?_, ?_⟩
  · intro q hq
    refine accumFits_of_taps (by decide) (by decide) (by simp) hq ?_
    obtain ⟨fw, e, rfl⟩ := hq
    have : (tableOf demoLib .bilinear Demo.xsrc.height Demo.xdst.height).map (fun t => decide (t.kernelSize ≤ 128)) =
        some true := by decide +kernel
    rw [e] at this
    show fw.kernelSize ≤ 128
    simpa using this
  · intro q hq
    refine accumFits_of_taps (by decide) (by decide) (by simp) hq ?_
    obtain ⟨fw, e, rfl⟩ := hq
    have : (tableOf demoLib .bilinear Demo.xsrc.width Demo.xdst.width).map (fun t => decide (t.kernelSize ≤ 128)) =
        some true := by decide +kernel
    rw [e] at this
    show fw.kernelSize ≤ 128
    simpa using this

example : ∃ out, genericResize (2 ^ 64) 4 (formatX86 ⟨true, true⟩ .preferQuality 4) demoLib .bilinear
    Demo.xsrc Demo.xdst = some (.ok (), out) := by
  obtain ⟨_, _, out, _, _, _, _, h, _⟩ := C53_quality_partial (cpu := ⟨true, true⟩) Demo.xaccepted
    (Or.inl ⟨rfl, Or.inl (by decide)⟩)
  exact ⟨out, h⟩
/-- The two halves of the hypothesis are both met by real calls. -/
example : (Demo.xsrc.width * 4 ≤ 32 ∨ Demo.xsrc.height = Demo.xdst.height) := Or.inl (by decide)

/-- The exact vertical SSE4.1 handler forgets to scale down its accumulators in 32-byte blocks: with
non-negative weights those samples are 255 whatever the picture. -/
theorem C53_sse_white {cpu : Cpu} {s : Workload} {W N : ℕ} {L : Lib} {r : ResamplingFunction} {store into : Image ℕ}
    (h : AcceptedX86 W N L r store into) (ha : cpu.avx2 = false) (hs : cpu.sse41 = true)
    (hq : s = .preferQuality ∨ below8 store.height into.height = false) (hw : store.width = into.width)
    (hnn : ∀ q, IsTable L r store.height into.height q → ∀ i k, 0 ≤ q.weight i k) :
    ∃ out, genericResize W N (formatX86 cpu s N) L r store into = some (.ok (), out) ∧
      ∀ y x c, y < into.height → x < into.width → c < N → x * N + c < 32 * ((store.width * N - 1) / 32) →
        sample out.buffer (into.strideOf N) N y x c = some 255 := by
  obtain ⟨qv, qh, out, tv, th, Tv, Th, Wv, Wh, o1, o2, o3, o4⟩ :=
    x86_values (cpu := cpu) (s := s) h (Or.inr (Or.inr (Or.inr (Or.inr hw))))
  refine ⟨out, o1, fun y x c hy hx hcc hp => ?_⟩
  rw [o4 y x c hy hx hcc]
  have hne : store.height ≠ into.height := by have := h.call.sizes; tauto
  have hk : selectV cpu s store.height into.height = .sse := by
    unfold selectV
    rw [if_neg (by simp [ha]), if_pos hs, if_neg]
    rintro ⟨h1, h2⟩
    rcases hq with hq | hq
    · rw [hq] at h2; exact absurd h2 (by simp)
    · rw [hq] at h1; exact absurd h1 (by simp)
  unfold sepAbs
  simp only [if_pos hw, if_neg hne, hk]
  show some (if _ then _ else _) = _
  rw [if_pos hp]
  congr 1
  have : 0 ≤ wsum (qv.bound y).size (fun j => qv.weight y j)
      (fun j => ((pxD 0 store.buffer (store.strideOf N) N ((qv.bound y).start + j) x c : ℕ) : ℤ)) :=
    sum_nonneg fun k _ => mul_nonneg (hnn qv tv y k) (by positivity)
  unfold clamp
  push_cast
  rw [min_eq_right (by omega)]
  rfl

/-- **C53 fails** on CPUs with SSE4.1 but without AVX2: halving the height of a black 33 × 2 plane gives
32 white samples and one black one; on a CPU with AVX2 it stays black. -/
theorem C53_violated :
    genericResize (2 ^ 64) 1 (formatX86 ⟨true, false⟩ .preferQuality 1) demoLib .bilinear
      ⟨List.replicate 66 0, 1, 33, 2, 33, 8⟩ ⟨List.replicate 33 7, 1, 33, 1, 33, 8⟩ =
      some (.ok (), ⟨List.replicate 32 255 ++ [0], 1, 33, 1, 33, 8⟩) ∧
    genericResize (2 ^ 64) 1 (formatX86 ⟨true, true⟩ .preferQuality 1) demoLib .bilinear
      ⟨List.replicate 66 0, 1, 33, 2, 33, 8⟩ ⟨List.replicate 33 7, 1, 33, 1, 33, 8⟩ =
      some (.ok (), ⟨List.replicate 33 0, 1, 33, 1, 33, 8⟩) := by
  decide +kernel

/-! ### C54: `PreferSpeed` -/

theorem HKernel.value_low {k : HKernel} (hk : k.low) (N : ℕ) (q : FilterWeights ℤ) (x c : ℕ) (P : ℕ → ℕ) :
    k.value N q x c P = lowRow (wAll (q.kernel x)) N (q.bound x) (fun i => P (i / N)) c := by
  cases k <;> first | rfl | exact absurd hk (by simp [HKernel.low])

theorem wAvx_eq {w : List ℤ} {b : Bounds} {k c : ℕ} (h : c ≠ 3 ∨ b.size ≤ 8) :
    wAvx w b k c = i16 (w.getD k 0) := by
  unfold wAvx
  rw [if_neg]
  rintro ⟨h1, _, h3⟩
  rcases h with h | h
  · exact h h1
  · omega

/-- **C54.** With `PreferSpeed` (the default), both size ratios below 8, and 1, 2 or 4 channels, each pass is the low precision
sum `fixedLow`, provided 16-bit accumulators cannot overflow; for the alpha channel of RGBA only where the
horizontal window has at most 8 taps. -/
theorem C54_speed_partial {cpu : Cpu} {W N : ℕ} {L : Lib} {r : ResamplingFunction} {store into : Image ℕ}
    (h : AcceptedX86 W N L r store into) (h16 : BothTables L r store into NoOverflow16)
    (hs : cpu.sse41 = true) (ha : N = 4 → cpu.avx2 = true) (hN : N ≠ 3 ∨ store.width = into.width)
    (hw : below8 store.width into.width = true) (hh : below8 store.height into.height = true) :
    ∃ qv qh out, IsTable L r store.height into.height qv ∧ IsTable L r store.width into.width qh ∧
      ValidTable qv store.height into.height ∧ ValidTable qh store.width into.width ∧
      genericResize W N (formatX86 cpu .preferSpeed N) L r store into = some (.ok (), out) ∧
      SameShape out into ∧ PaddingKept N into out ∧
      ∀ y x c, y < into.height → x < into.width → c < N → (N = 4 → c = 3 → (qh.bound x).size ≤ 8) →
        sample out.buffer (into.strideOf N) N y x c = some
          (separable store.width store.height into.width into.height
            (fun i => (qv.bound i).start)
            (fun i p => fixedLow (qv.bound i).size (fun k => qv.weight i k) p)
            (fun i => (qh.bound i).start)
            (fun i p => fixedLow (qh.bound i).size (fun k => qh.weight i k) p)
            (fun y x => pxD 0 store.buffer (store.strideOf N) N y x c) y x) := by
  obtain ⟨n1, n4⟩ := h.call.channels
  have hf : CpuFits cpu .preferSpeed N store into := by
    by_cases h4 : N = 4
    · exact Or.inr (Or.inr (Or.inl (ha h4)))
    · exact Or.inl (by omega)
  obtain ⟨qv, qh, out, tv, th, Tv, Th, Wv, Wh, o1, o2, o3, o4⟩ := x86_values (cpu := cpu) (s := .preferSpeed) h hf
  refine ⟨qv, qh, out, tv, th, Tv, Th, o1, o2, o3, fun y x c hy hx hcc h8 => ?_⟩
  rw [o4 y x c hy hx hcc]
  congr 1
  refine sep_of_abs (pxD_byte h.bytes N c) (fun _ _ _ _ => VKernel.value_le _ _ _ _ _ _) ?_ ?_
  · intro hne x' P hP
    have hv : selectV cpu .preferSpeed store.height into.height = .avxLp ∨
        selectV cpu .preferSpeed store.height into.height = .sseLp := by
      unfold selectV
      rw [hh, hs]
      cases cpu.avx2 <;> simp
    have e : (selectV cpu .preferSpeed store.height into.height).value qv (store.width * N) y (x' * N + c) P =
        lowMachine (qv.bound y).size (fun j => qv.weight y j) (fun j => P ((qv.bound y).start + j)) := by
      rcases hv with hv | hv <;> rw [hv] <;> rfl
    rw [e]
    exact lowMachine_value hy rfl Wv (h16.1 qv tv) fun i => hP _
  · intro hne P hP
    have hk : (selectH cpu .preferSpeed N store.width into.height into.width into.height).value N qh x c P =
        lowMachine (qh.bound x).size (fun k => qh.weight x k) (fun k => P ((qh.bound x).start + k)) := by
      have hb : below8 into.height into.height = true := below8_self (checkResize_ok.1 h.call.checked).2.2.1.2.2.2
      by_cases h4 : N = 4
      · have : selectH cpu .preferSpeed N store.width into.height into.width into.height = .rgbaAvxLb := by
          subst h4
          show (if (cpu.avx2 = true ∨ below8 store.width into.width = true) ∧ Workload.preferSpeed = Workload.preferSpeed then
            HKernel.rgbaAvxLb else _) = _
          rw [if_pos ⟨Or.inr hw, rfl⟩]
        rw [this]
        show lowRow (wAvx (qh.kernel x) (qh.bound x)) N (qh.bound x) (fun i => P (i / N)) c = _
        refine lowRow_value n1 hcc (fun k hk => wAvx_eq ?_) Th hx Wh hP
        by_cases h3 : c = 3
        · exact Or.inr (h8 h4 h3)
        · exact Or.inl h3
      · have : (selectH cpu .preferSpeed N store.width into.height into.width into.height).low := by
          have hN3 : N ≠ 3 := hN.resolve_right hne
          have : N = 1 ∨ N = 2 := by omega
          rcases this with rfl | rfl
          · show (if cpu.sse41 = true then _ else _ : HKernel).low
            rw [if_pos hs, if_pos ⟨hb, rfl⟩]
            trivial
          · show (if cpu.sse41 = true ∧ below8 store.width into.width = true ∧ _ then _ else _ : HKernel).low
            rw [if_pos ⟨hs, hw, rfl⟩]
            trivial
        rw [HKernel.value_low this]
        exact lowRow_value n1 hcc (fun k hk => rfl) Th hx Wh hP
    rw [hk]
    exact lowMachine_value hx rfl Wh (h16.2 qh th) fun i => hP _

theorem low_sum_err {n : ℕ} {w : ℕ → ℤ} {p : ℕ → ℕ} (hp : ∀ k, k < n → p k ≤ 255) :
    |((∑ k ∈ range n, lowTerm (p k) (w k) : ℤ) : ℚ) / 64 - exactSum n (fun k => (w k : ℚ) / 32768) p| ≤
      (n : ℚ) / 128 + 63 / 64 * (∑ k ∈ range n, |(w k : ℚ)| / 32768) := by
  have e : ((∑ k ∈ range n, lowTerm (p k) (w k) : ℤ) : ℚ) / 64 - exactSum n (fun k => (w k : ℚ) / 32768) p =
      ∑ k ∈ range n, ((lowTerm (p k) (w k) : ℚ) / 64 - (w k : ℚ) / 32768 * (p k : ℚ)) := by
    unfold exactSum
    push_cast
    rw [Finset.sum_div, ← sum_sub_distrib]
  rw [e]
  refine le_trans (abs_sum_le_sum_abs _ _) ?_
  have hb : ∀ k ∈ range n, |(lowTerm (p k) (w k) : ℚ) / 64 - (w k : ℚ) / 32768 * (p k : ℚ)| ≤
      1 / 128 + 63 / 64 * (|(w k : ℚ)| / 32768) := by
    intro k hk
    have hpk := hp k (by simpa using hk)
    obtain ⟨t, ht⟩ : ∃ t, p k / 4 = t := ⟨_, rfl⟩
    have e1 : 257 * p k / 4 = 64 * p k + t := by omega
    have ht' : t ≤ 63 := by omega
    unfold lowTerm
    rw [e1]
    set a : ℚ := ((64 * p k + t : ℕ) : ℚ) * (w k : ℚ) / 32768 with hadef
    have f1 := Int.floor_le (a + 1 / 2)
    have f2 := Int.lt_floor_add_one (a + 1 / 2)
    have f3 : |(⌊a + 1 / 2⌋ : ℚ) - a| ≤ 1 / 2 := by rw [abs_le]; constructor <;> linarith
    have e2 : (⌊a + 1 / 2⌋ : ℚ) / 64 - (w k : ℚ) / 32768 * (p k : ℚ) =
        ((⌊a + 1 / 2⌋ : ℚ) - a) / 64 + (t : ℚ) / 64 * ((w k : ℚ) / 32768) := by
      rw [hadef]; push_cast; ring
    rw [e2]
    refine le_trans (abs_add_le _ _) (add_le_add ?_ ?_)
    · rw [abs_div, abs_of_pos (show (0 : ℚ) < 64 by norm_num)]
      linarith
    · rw [abs_mul, abs_div (w k : ℚ), abs_of_pos (show (0 : ℚ) < 32768 by norm_num),
        abs_of_nonneg (show (0 : ℚ) ≤ (t : ℚ) / 64 by positivity)]
      apply mul_le_mul_of_nonneg_right _ (by positivity)
      have : (t : ℚ) ≤ 63 := by exact_mod_cast ht'
      linarith
  refine le_trans (sum_le_sum hb) (le_of_eq ?_)
  rw [sum_add_distrib, sum_const, card_range, nsmul_eq_mul, mul_sum]
  ring

/-- **C54**, accuracy: a low precision pass over `n` taps is within `1/2 + n/128 + (63/64) Σ|w|` of the exact
weighted sum, clamped (`w` the quantised weights, `Σ|w|` about 1 for filters without negative lobes). -/
theorem C54_error {n : ℕ} {w : ℕ → ℤ} {p : ℕ → ℕ} (hp : ∀ k, k < n → p k ≤ 255) :
    |((fixedLow n w p : ℕ) : ℚ) - clampQ 255 (exactSum n (fun k => (w k : ℚ) / 32768) p)| ≤
      1 / 2 + n / 128 + 63 / 64 * (∑ k ∈ range n, |(w k : ℚ)| / 32768) := by
  have h := low_sum_err (w := w) hp
  unfold fixedLow
  rw [clamp_cast]
  apply clampQ_err
  set a := ((∑ k ∈ range n, lowTerm (p k) (w k) : ℤ) : ℚ) / 64
  have h1 := Int.floor_le (a + 1 / 2)
  have h2 := Int.lt_floor_add_one (a + 1 / 2)
  rw [abs_le] at h ⊢
  constructor <;> linarith

/-- Black stays black in a low precision pass. -/
theorem C54_black {n : ℕ} {w : ℕ → ℤ} : fixedLow n w (fun _ => 0) = 0 := by
  have : ∀ k, lowTerm 0 (w k) = 0 := fun k => by
    unfold lowTerm
    norm_num
  unfold fixedLow
  simp only [this, sum_const_zero]
  norm_num [clamp]

/-- **C54 fails** as an accuracy promise: under the default strategy a plane of constant 200 resized to half its width becomes
constant 201; with `PreferQuality` it stays 200. -/
theorem C54_violated :
    genericResize (2 ^ 64) 1 (formatX86 ⟨true, true⟩ .preferSpeed 1) demoLib .bilinear
      ⟨List.replicate 8 200, 1, 8, 1, 8, 8⟩ ⟨List.replicate 4 7, 1, 4, 1, 4, 8⟩ =
      some (.ok (), ⟨List.replicate 4 201, 1, 4, 1, 4, 8⟩) ∧
    genericResize (2 ^ 64) 1 (formatX86 ⟨true, true⟩ .preferQuality 1) demoLib .bilinear
      ⟨List.replicate 8 200, 1, 8, 1, 8, 8⟩ ⟨List.replicate 4 7, 1, 4, 1, 4, 8⟩ =
      some (.ok (), ⟨List.replicate 4 200, 1, 4, 1, 4, 8⟩) := by
  decide +kernel

instance (fw : FilterWeights ℤ) (out : ℕ) : Decidable (NoOverflow16 fw out) := by
  unfold NoOverflow16; infer_instance

theorem Demo.x16 : BothTables demoLib .bilinear Demo.xsrc Demo.xdst NoOverflow16 := by
  constructor
  · rintro q ⟨fw, e, rfl⟩
    have : (tableOf demoLib .bilinear Demo.xsrc.height Demo.xdst.height).map
        (fun t => decide (NoOverflow16 (numericalApproximation F32.rnd t) Demo.xdst.height)) = some true := by
      decide +kernel
    rw [e] at this
    simpa using this
  · rintro q ⟨fw, e, rfl⟩
    have : (tableOf demoLib .bilinear Demo.xsrc.width Demo.xdst.width).map
        (fun t => decide (NoOverflow16 (numericalApproximation F32.rnd t) Demo.xdst.width)) = some true := by
      decide +kernel
    rw [e] at this
    simpa using this

example : ∃ out, genericResize (2 ^ 64) 4 (formatX86 ⟨true, true⟩ .preferSpeed 4) demoLib .bilinear
    Demo.xsrc Demo.xdst = some (.ok (), out) := by
  obtain ⟨_, _, out, _, _, _, _, h, _⟩ := C54_speed_partial (cpu := ⟨true, true⟩) Demo.xaccepted Demo.x16 rfl
    (fun _ => rfl) (Or.inl (by decide)) (by decide +kernel) (by decide +kernel)
  exact ⟨out, h⟩

/-! ### C58: locality -/

/-- `x'` is in the horizontal window of `x` (`x` itself if the width does not change). -/
def InWin (sw dw : ℕ) (q : FilterWeights ℤ) (x x' : ℕ) : Prop :=
  if sw = dw then x' = x else (q.bound x).start ≤ x' ∧ x' < (q.bound x).start + (q.bound x).size

theorem sepAbs_congr {sw sh dw dh : ℕ} {vv vv' : ℕ → ℕ → ℕ → (ℕ → ℕ) → ℕ} {hv hv' : ℕ → ℕ → (ℕ → ℕ) → ℕ}
    {c c' y x : ℕ} {p p' : ℕ → ℕ → ℕ} {q : FilterWeights ℤ}
    (h0 : sh = dh → ∀ x', InWin sw dw q x x' → p y x' = p' y x')
    (h1 : sh ≠ dh → ∀ x', InWin sw dw q x x' → vv y x' c (fun y' => p y' x') = vv' y x' c' (fun y' => p' y' x'))
    (h2 : sw ≠ dw → ∀ P P' : ℕ → ℕ, (∀ x', InWin sw dw q x x' → P x' = P' x') → hv x c P = hv' x c' P') :
    sepAbs sw sh dw dh vv hv c p y x = sepAbs sw sh dw dh vv' hv' c' p' y x := by
  have hcol : ∀ x', InWin sw dw q x x' → (if sh = dh then p y x' else vv y x' c (fun y' => p y' x')) =
      (if sh = dh then p' y x' else vv' y x' c' (fun y' => p' y' x')) := by
    intro x' hx'
    by_cases hd : sh = dh
    · rw [if_pos hd, if_pos hd]; exact h0 hd x' hx'
    · rw [if_neg hd, if_neg hd]; exact h1 hd x' hx'
  unfold sepAbs
  simp only
  by_cases hd : sw = dw
  · rw [if_pos hd, if_pos hd]
    exact hcol x (by unfold InWin; rw [if_pos hd])
  · rw [if_neg hd, if_neg hd]
    exact h2 hd _ _ hcol

theorem lowMachine_congr {n : ℕ} {w : ℕ → ℤ} {s s' : ℕ → ℕ} (h : ∀ k, k < n → s k = s' k) :
    lowMachine n w s = lowMachine n w s' := by
  unfold lowMachine
  congr 4
  exact sum_congr rfl fun k hk => by rw [h k (by simpa using hk)]

theorem wsum_cast_congr {n : ℕ} {w : ℕ → ℤ} {s s' : ℕ → ℕ} (h : ∀ k, k < n → s k = s' k) :
    wsum n w (fun k => ((s k : ℕ) : ℤ)) = wsum n w (fun k => ((s' k : ℕ) : ℤ)) :=
  wsum_congr (fun _ _ => rfl) fun k hk => by rw [h k hk]

theorem VKernel.value_congr (k : VKernel) (q : FilterWeights ℤ) (len y p : ℕ) {P P' : ℕ → ℕ}
    (h : ∀ j, j < (q.bound y).size → P ((q.bound y).start + j) = P' ((q.bound y).start + j)) :
    k.value q len y p P = k.value q len y p P' := by
  have hw := wsum_cast_congr (w := fun j => q.weight y j) h
  cases k
  · show clamp 255 (fixFloor (wsum _ _ _)) = clamp 255 (fixFloor (wsum _ _ _))
    rw [hw]
  · show (if _ then clamp 255 (16384 + wsum _ _ _) else clamp 255 (fixRound (wsum _ _ _))) =
      if _ then clamp 255 (16384 + wsum _ _ _) else clamp 255 (fixRound (wsum _ _ _))
    rw [hw]
  · show clamp 255 (fixRound (wsum _ _ _)) = clamp 255 (fixRound (wsum _ _ _))
    rw [hw]
  · exact lowMachine_congr h
  · exact lowMachine_congr h

theorem pos_div {N j c : ℕ} (hN : 1 ≤ N) (hc : c < N) : (j * N + c) / N = j := by
  rw [Nat.mul_comm, Nat.mul_add_div hN, Nat.div_eq_of_lt hc, Nat.add_zero]

theorem HKernel.value_congr {k : HKernel} (hk : k ≠ .rgbAvx) {N : ℕ} (hN : 1 ≤ N) (q : FilterWeights ℤ) (x : ℕ)
    {c : ℕ} (hc : c < N) {P P' : ℕ → ℕ}
    (h : ∀ j, j < (q.bound x).size → P ((q.bound x).start + j) = P' ((q.bound x).start + j)) :
    k.value N q x c P = k.value N q x c P' := by
  have hex : ∀ w, exactRow N w (q.bound x) (fun i => P (i / N)) c =
      exactRow N w (q.bound x) (fun i => P' (i / N)) c := by
    intro w
    unfold exactRow
    congr 3
    refine wsum_congr (fun _ _ => rfl) fun j hj => ?_
    dsimp only
    rw [pos_div hN hc, h j hj]
  have hlo : ∀ W, lowRow W N (q.bound x) (fun i => P (i / N)) c =
      lowRow W N (q.bound x) (fun i => P' (i / N)) c := by
    intro W
    unfold lowRow
    congr 4
    refine sum_congr rfl fun j hj => ?_
    dsimp only
    rw [pos_div hN hc, h j (by simpa using hj)]
  cases k
  case rgbAvx => exact absurd rfl hk
  case scalar =>
    show clamp 255 (fixRound (wsum _ _ _)) = clamp 255 (fixRound (wsum _ _ _))
    rw [wsum_cast_congr h]
  case rgbaAvxLb =>
    show lowRow (wAvx (q.kernel x) (q.bound x)) N (q.bound x) (fun i => P (i / N)) c =
      lowRow (wAvx (q.kernel x) (q.bound x)) N (q.bound x) (fun i => P' (i / N)) c
    exact hlo _
  case planeSseHrs =>
    show lowRow (wAll (q.kernel x)) N (q.bound x) (fun i => P (i / N)) c =
      lowRow (wAll (q.kernel x)) N (q.bound x) (fun i => P' (i / N)) c
    exact hlo _
  case cbcrSseHrs =>
    show lowRow (wAll (q.kernel x)) N (q.bound x) (fun i => P (i / N)) c =
      lowRow (wAll (q.kernel x)) N (q.bound x) (fun i => P' (i / N)) c
    exact hlo _
  case rgbaSseLb =>
    show lowRow (wAll (q.kernel x)) N (q.bound x) (fun i => P (i / N)) c =
      lowRow (wAll (q.kernel x)) N (q.bound x) (fun i => P' (i / N)) c
    exact hlo _
  all_goals
    show exactRow N (q.kernel x) (q.bound x) (fun i => P (i / N)) c =
      exactRow N (q.kernel x) (q.bound x) (fun i => P' (i / N)) c
    exact hex _

theorem selectH_ne_rgbAvx {cpu : Cpu} {s : Workload} {N sw sh dw dh : ℕ} (hN : 1 ≤ N ∧ N ≤ 4)
    (h : N ≠ 3 ∨ cpu.avx2 = false) : selectH cpu s N sw sh dw dh ≠ .rgbAvx := by
  obtain ⟨n1, n4⟩ := hN
  interval_cases N <;> unfold selectH <;> simp only
  · split_ifs <;> simp
  · split_ifs <;> simp
  · rw [if_neg (by simpa using h)]
    split_ifs <;> simp
  · split_ifs <;> simp

theorem isTable_unique {L : Lib} {r : ResamplingFunction} {inn out : ℕ} {q q' : FilterWeights ℤ}
    (h : IsTable L r inn out q) (h' : IsTable L r inn out q') : q = q' := by
  obtain ⟨fw, e, rfl⟩ := h
  obtain ⟨fw', e', rfl⟩ := h'
  rw [e] at e'
  obtain rfl := Option.some.inj e'
  rfl

/-- The values of a known result. -/
theorem x86_result {cpu : Cpu} {s : Workload} {W N : ℕ} {L : Lib} {r : ResamplingFunction}
    {store into out : Image ℕ} {qv qh : FilterWeights ℤ} (h : AcceptedX86 W N L r store into)
    (hc : CpuFits cpu s N store into)
    (tv : IsTable L r store.height into.height qv) (th : IsTable L r store.width into.width qh)
    (ho : genericResize W N (formatX86 cpu s N) L r store into = some (.ok (), out)) :
    ValidTable qv store.height into.height ∧ ValidTable qh store.width into.width ∧
      I16Weights qv ∧ I16Weights qh ∧
      ∀ y x c, y < into.height → x < into.width → c < N →
        sample out.buffer (into.strideOf N) N y x c = some
          (sepAbs store.width store.height into.width into.height
            (fun y x c => (selectV cpu s store.height into.height).value qv (store.width * N) y (x * N + c))
            (fun x c => (selectH cpu s N store.width into.height into.width into.height).value N qh x c) c
            (fun y x => pxD 0 store.buffer (store.strideOf N) N y x c) y x) := by
  obtain ⟨qv', qh', out', tv', th', Tv, Th, Wv, Wh, o1, _, _, o4⟩ := x86_values h hc
  rw [o1] at ho
  obtain rfl : out' = out := by simpa using ho
  obtain rfl := isTable_unique tv tv'
  obtain rfl := isTable_unique th th'
  exact ⟨Tv, Th, Wv, Wh, o4⟩

/-- **C58** (all but RGB with AVX2). An output pixel depends only on the source pixels inside its vertical and
horizontal windows, on every CPU and with either strategy. -/
theorem C58_locality_partial {cpu : Cpu} {s : Workload} {W N : ℕ} {L : Lib} {r : ResamplingFunction}
    {store store' into out out' : Image ℕ} {qv qh : FilterWeights ℤ} {y x : ℕ}
    (h : AcceptedX86 W N L r store into) (h' : AcceptedX86 W N L r store' into)
    (hc : CpuFits cpu s N store into) (hr : N ≠ 3 ∨ cpu.avx2 = false ∨ store.width = into.width)
    (hsz : store.width = store'.width ∧ store.height = store'.height)
    (tv : IsTable L r store.height into.height qv) (th : IsTable L r store.width into.width qh)
    (hy : y < into.height) (hx : x < into.width)
    (hp : ∀ y' x' c,
      (if store.height = into.height then y' = y
        else (qv.bound y).start ≤ y' ∧ y' < (qv.bound y).start + (qv.bound y).size) →
      (if store.width = into.width then x' = x
        else (qh.bound x).start ≤ x' ∧ x' < (qh.bound x).start + (qh.bound x).size) → c < N →
      sample store.buffer (store.strideOf N) N y' x' c = sample store'.buffer (store'.strideOf N) N y' x' c)
    (ho : genericResize W N (formatX86 cpu s N) L r store into = some (.ok (), out))
    (ho' : genericResize W N (formatX86 cpu s N) L r store' into = some (.ok (), out')) :
    ∀ c, c < N →
      sample out.buffer (into.strideOf N) N y x c = sample out'.buffer (into.strideOf N) N y x c := by
  intro c hcc
  have hc' : CpuFits cpu s N store' into := by unfold CpuFits at hc ⊢; rw [← hsz.1]; exact hc
  obtain ⟨_, _, _, _, e⟩ := x86_result h hc tv th ho
  obtain ⟨_, _, _, _, e'⟩ := x86_result h' hc' (by rw [← hsz.2]; exact tv) (by rw [← hsz.1]; exact th) ho'
  rw [e y x c hy hx hcc, e' y x c hy hx hcc, ← hsz.1, ← hsz.2]
  congr 1
  refine sepAbs_congr (q := qh) ?_ ?_ ?_
  · intro hd x' hx'
    simp only [pxD]
    rw [hp y x' c (by rw [if_pos hd]) hx' hcc]
  · intro hd x' hx'
    refine VKernel.value_congr _ _ _ _ _ fun j hj => ?_
    simp only [pxD]
    rw [hp _ x' c (by rw [if_neg hd]; omega) hx' hcc]
  · intro hd P P' hP
    refine HKernel.value_congr (selectH_ne_rgbAvx h.call.channels ?_) h.call.channels.1 _ _ hcc fun j hj => ?_
    · rcases hr with hr | hr | hr
      · exact Or.inl hr
      · exact Or.inr hr
      · exact absurd hr hd
    · exact hP _ (by unfold InWin; rw [if_neg hd]; omega)

/-- **C58 fails** for RGB on CPUs with AVX2: enlarging a row from 4 to 8 pixels, the red and green of *every* output
pixel come from the first source pixel, although the windows of the last output pixels start at source pixel 2. -/
theorem C58_violated :
    (tableOf demoLib .bilinear 4 8).map (fun t => (t.bound 7).start) = some 2 ∧
    genericResize (2 ^ 64) 3 (formatX86 ⟨true, true⟩ .preferQuality 3) demoLib .bilinear
      ⟨[0, 0, 0, 9, 9, 9, 9, 9, 9, 9, 9, 9], 3, 4, 1, 12, 8⟩ ⟨List.replicate 24 7, 3, 8, 1, 24, 8⟩ =
      some (.ok (), ⟨[0, 0, 0, 0, 0, 2, 0, 0, 7, 0, 0, 9, 0, 0, 9, 0, 0, 9, 0, 0, 9, 0, 0, 9], 3, 8, 1, 24, 8⟩) ∧
    genericResize (2 ^ 64) 3 (formatX86 ⟨true, true⟩ .preferQuality 3) demoLib .bilinear
      ⟨[255, 0, 0, 9, 9, 9, 9, 9, 9, 9, 9, 9], 3, 4, 1, 12, 8⟩ ⟨List.replicate 24 7, 3, 8, 1, 24, 8⟩ =
      some (.ok (), ⟨[255, 0, 0, 255, 0, 2, 255, 0, 7, 255, 0, 9, 255, 0, 9, 255, 0, 9, 255, 0, 9, 255, 0, 9],
        3, 8, 1, 24, 8⟩) := by
  decide +kernel

example : ∃ (store' out out' : Image ℕ), AcceptedX86 (2 ^ 64) 4 demoLib .bilinear Demo.xsrc Demo.xdst ∧
    CpuFits ⟨true, true⟩ .preferSpeed 4 Demo.xsrc Demo.xdst ∧ store'.buffer ≠ Demo.xsrc.buffer ∧
    genericResize (2 ^ 64) 4 (formatX86 ⟨true, true⟩ .preferSpeed 4) demoLib .bilinear Demo.xsrc Demo.xdst =
      some (.ok (), out) ∧
    genericResize (2 ^ 64) 4 (formatX86 ⟨true, true⟩ .preferSpeed 4) demoLib .bilinear store' Demo.xdst =
      some (.ok (), out') := by
  have hc : CpuFits ⟨true, true⟩ .preferSpeed 4 Demo.xsrc Demo.xdst := Or.inr (Or.inr (Or.inl rfl))
  have hs : AcceptedCall (2 ^ 64) 4 .bilinear { Demo.xsrc with buffer := List.replicate 48 3 } Demo.xdst := by
    constructor <;> decide +kernel
  obtain ⟨out, h1, _⟩ := C52_no_oob (L := demoLib) Demo.xcall hc
  obtain ⟨out', h2, _⟩ := C52_no_oob (L := demoLib) hs hc
  exact ⟨_, out, out', Demo.xaccepted, hc, by decide +kernel, h1, h2⟩

/-! ### C55: the channels are treated alike -/

theorem VKernel.value_pos {k : VKernel} {len : ℕ} (h : k ≠ .sse ∨ len ≤ 32) (q : FilterWeights ℤ) (y p p' : ℕ)
    (P : ℕ → ℕ) : k.value q len y p P = k.value q len y p' P := by
  cases k
  case sse =>
    have hl : len ≤ 32 := by simpa using h
    show (if _ then _ else _) = if _ then _ else _
    rw [if_neg (by omega), if_neg (by omega)]
  all_goals rfl

theorem exactRow_chan {N c c' : ℕ} (hN : 1 ≤ N) (hc : c < N) (hc' : c' < N) (w : List ℤ) (b : Bounds) {P P' : ℕ → ℕ}
    (h : ∀ j, j < b.size → P (b.start + j) = P' (b.start + j)) :
    exactRow N w b (fun i => P (i / N)) c = exactRow N w b (fun i => P' (i / N)) c' := by
  unfold exactRow
  congr 3
  refine wsum_congr (fun _ _ => rfl) fun j hj => ?_
  dsimp only
  rw [pos_div hN hc, pos_div hN hc', h j hj]

theorem lowRow_chan {N c c' : ℕ} (hN : 1 ≤ N) (hc : c < N) (hc' : c' < N) (W : ℕ → ℕ → ℤ) (b : Bounds)
    {P P' : ℕ → ℕ} (hW : ∀ k, W k c = W k c')
    (h : ∀ j, j < b.size → P (b.start + j) = P' (b.start + j)) :
    lowRow W N b (fun i => P (i / N)) c = lowRow W N b (fun i => P' (i / N)) c' := by
  unfold lowRow
  congr 4
  refine sum_congr rfl fun j hj => ?_
  dsimp only
  rw [pos_div hN hc, pos_div hN hc', h j (by simpa using hj), hW]

theorem HKernel.value_chan {k : HKernel} (hk : k ≠ .rgbAvx) {N : ℕ} (hN : 1 ≤ N) (q : FilterWeights ℤ) (x : ℕ)
    {c c' : ℕ} (hc : c < N) (hc' : c' < N) {P P' : ℕ → ℕ}
    (ha : k = .rgbaAvxLb → (c ≠ 3 ∧ c' ≠ 3) ∨ (q.bound x).size ≤ 8)
    (h : ∀ j, j < (q.bound x).size → P ((q.bound x).start + j) = P' ((q.bound x).start + j)) :
    k.value N q x c P = k.value N q x c' P' := by
  cases k
  case rgbAvx => exact absurd rfl hk
  case scalar =>
    show clamp 255 (fixRound (wsum _ _ _)) = clamp 255 (fixRound (wsum _ _ _))
    rw [wsum_cast_congr h]
  case rgbaAvxLb =>
    show lowRow (wAvx (q.kernel x) (q.bound x)) N (q.bound x) (fun i => P (i / N)) c =
      lowRow (wAvx (q.kernel x) (q.bound x)) N (q.bound x) (fun i => P' (i / N)) c'
    refine lowRow_chan hN hc hc' _ _ (fun k => ?_) h
    rcases ha rfl with ha | ha
    · rw [wAvx_eq (Or.inl ha.1), wAvx_eq (Or.inl ha.2)]
    · rw [wAvx_eq (Or.inr ha), wAvx_eq (Or.inr ha)]
  case planeSseHrs =>
    show lowRow (wAll (q.kernel x)) N (q.bound x) (fun i => P (i / N)) c =
      lowRow (wAll (q.kernel x)) N (q.bound x) (fun i => P' (i / N)) c'
    exact lowRow_chan hN hc hc' _ _ (fun _ => rfl) h
  case cbcrSseHrs =>
    show lowRow (wAll (q.kernel x)) N (q.bound x) (fun i => P (i / N)) c =
      lowRow (wAll (q.kernel x)) N (q.bound x) (fun i => P' (i / N)) c'
    exact lowRow_chan hN hc hc' _ _ (fun _ => rfl) h
  case rgbaSseLb =>
    show lowRow (wAll (q.kernel x)) N (q.bound x) (fun i => P (i / N)) c =
      lowRow (wAll (q.kernel x)) N (q.bound x) (fun i => P' (i / N)) c'
    exact lowRow_chan hN hc hc' _ _ (fun _ => rfl) h
  all_goals
    show exactRow N (q.kernel x) (q.bound x) (fun i => P (i / N)) c =
      exactRow N (q.kernel x) (q.bound x) (fun i => P' (i / N)) c'
    exact exactRow_chan hN hc hc' _ _ h

theorem selectV_ne_sse {cpu : Cpu} {s : Workload} {sh dh : ℕ} (h : cpu.avx2 = true ∨ cpu.sse41 = false) :
    selectV cpu s sh dh ≠ .sse := by
  unfold selectV
  rcases h with h | h
  · rw [if_pos h]; split_ifs <;> simp
  · rw [if_neg (show ¬ cpu.sse41 = true by simp [h])]
    split_ifs <;> simp

theorem selectH_quality_ne {cpu : Cpu} {N sw sh dw dh : ℕ} (hN : 1 ≤ N ∧ N ≤ 4) :
    selectH cpu .preferQuality N sw sh dw dh ≠ .rgbaAvxLb := by
  obtain ⟨n1, n4⟩ := hN
  interval_cases N <;> unfold selectH <;> simp only <;> split_ifs <;> simp_all

/-- **C55** (partly). Channels are filtered alike: if channel `c` of one picture equals channel `c'` of another of the same
format and size, so do those channels of the results. Excluded: the alpha channel of RGBA under
`PreferSpeed` where a window has more than 8 taps, RGB with AVX2, and the vertical SSE4.1 handler on rows of
more than 32 bytes. -/
theorem C55_channels_partial {cpu : Cpu} {s : Workload} {W N : ℕ} {L : Lib} {r : ResamplingFunction}
    {store store' into out out' : Image ℕ} {qh : FilterWeights ℤ} {c c' : ℕ}
    (h : AcceptedX86 W N L r store into) (h' : AcceptedX86 W N L r store' into)
    (hc : CpuFits cpu s N store into) (th : IsTable L r store.width into.width qh)
    (hr : N ≠ 3 ∨ cpu.avx2 = false ∨ store.width = into.width)
    (hv : cpu.avx2 = true ∨ cpu.sse41 = false ∨ store.width * N ≤ 32 ∨ store.height = into.height)
    (ha : s = .preferQuality ∨ (c ≠ 3 ∧ c' ≠ 3) ∨ ∀ i, i < into.width → (qh.bound i).size ≤ 8)
    (hsz : store.width = store'.width ∧ store.height = store'.height) (hcN : c < N) (hcN' : c' < N)
    (hp : ∀ y x, y < store.height → x < store.width →
      sample store.buffer (store.strideOf N) N y x c = sample store'.buffer (store'.strideOf N) N y x c')
    (ho : genericResize W N (formatX86 cpu s N) L r store into = some (.ok (), out))
    (ho' : genericResize W N (formatX86 cpu s N) L r store' into = some (.ok (), out')) :
    ∀ y x, y < into.height → x < into.width →
      sample out.buffer (into.strideOf N) N y x c = sample out'.buffer (into.strideOf N) N y x c' := by
  intro y x hy hx
  have hc' : CpuFits cpu s N store' into := by unfold CpuFits at hc ⊢; rw [← hsz.1]; exact hc
  obtain ⟨c1, c2, c3, _⟩ := checkResize_ok.1 h.call.checked
  obtain ⟨vf, ev, _, _⟩ := table_exists L r (out := into.height) c3.2.1 h.call.small.2 (fun ha => (h.call.area ha).2)
  have tv : IsTable L r store.height into.height (numericalApproximation F32.rnd vf) := ⟨vf, ev, rfl⟩
  obtain ⟨Tv, Th, _, _, e⟩ := x86_result h hc tv th ho
  obtain ⟨_, _, _, _, e'⟩ := x86_result h' hc' (by rw [← hsz.2]; exact tv) (by rw [← hsz.1]; exact th) ho'
  rw [e y x c hy hx hcN, e' y x c' hy hx hcN', ← hsz.1, ← hsz.2]
  congr 1
  have hin := Th.inside x hx
  have hwin : ∀ x', InWin store.width into.width qh x x' → x' < store.width := by
    intro x' hx'
    unfold InWin at hx'
    split_ifs at hx' with hd
    · omega
    · omega
  refine sepAbs_congr (q := qh) ?_ ?_ ?_
  · intro hd x' hx'
    simp only [pxD]
    rw [hp y x' (by omega) (hwin x' hx')]
  · intro hd x' hx'
    rw [VKernel.value_pos (k := selectV cpu s store.height into.height) (p' := x' * N + c')
      (by
        rcases hv with hv | hv | hv | hv
        · exact Or.inl (selectV_ne_sse (Or.inl hv))
        · exact Or.inl (selectV_ne_sse (Or.inr hv))
        · exact Or.inr hv
        · exact absurd hv hd)]
    refine VKernel.value_congr _ _ _ _ _ fun j hj => ?_
    simp only [pxD]
    have := Tv.inside y hy
    rw [hp _ x' (by omega) (hwin x' hx')]
  · intro hd P P' hP
    refine HKernel.value_chan (selectH_ne_rgbAvx h.call.channels ?_) h.call.channels.1 _ _ hcN hcN' ?_ fun j hj => ?_
    · rcases hr with hr | hr | hr
      · exact Or.inl hr
      · exact Or.inr hr
      · exact absurd hr hd
    · intro hk
      rcases ha with ha | ha | ha
      · subst ha
        exact absurd hk (selectH_quality_ne h.call.channels)
      · exact Or.inl ha
      · exact Or.inr (ha x hx)
    · exact hP _ (by unfold InWin; rw [if_neg hd]; omega)

/-- **C55 fails** for RGBA under the default strategy with AVX2: shrinking twelve pixels (pixel 4 white and
opaque, the others all zero, so that the four channels are equal) to two, the alpha channel of the first pixel of the result is
28 where the colour channels are 37. -/
theorem C55_violated :
    genericResize (2 ^ 64) 4 (formatX86 ⟨true, true⟩ .preferSpeed 4) demoLib .bilinear
      ⟨(List.range 48).map (fun i => if i / 4 = 4 then 255 else 0), 4, 12, 1, 48, 8⟩
      ⟨List.replicate 8 7, 4, 2, 1, 8, 8⟩ =
      some (.ok (), ⟨[37, 37, 37, 28, 12, 12, 12, 12], 4, 2, 1, 8, 8⟩) := by
  decide +kernel

/-- The conditions of `C55_channels_partial` and `C56_cpu_partial` hold of the RGBA example of C53. -/
example : (4 ≠ 3 ∨ Cpu.avx2 ⟨true, true⟩ = false ∨ Demo.xsrc.width = Demo.xdst.width) ∧
    (Cpu.avx2 ⟨true, true⟩ = true ∨ Cpu.sse41 ⟨true, true⟩ = false ∨ Demo.xsrc.width * 4 ≤ 32 ∨
      Demo.xsrc.height = Demo.xdst.height) ∧
    CpuFits ⟨true, true⟩ .preferSpeed 4 Demo.xsrc Demo.xdst ∧ ((0 : ℕ) ≠ 3 ∧ (1 : ℕ) ≠ 3) := by
  exact ⟨Or.inl (by decide), Or.inl rfl, Or.inr (Or.inr (Or.inl rfl)), by decide, by decide⟩

/-! ### C56: independence of the CPU -/

theorem quality_h_value {cpu : Cpu} {N sw sh dw dh : ℕ} (hN : 1 ≤ N ∧ N ≤ 4) (h3 : N ≠ 3 ∨ cpu.avx2 = false)
    {q : FilterWeights ℤ} {inn out x c : ℕ} (hc : c < N) (hT : ValidTable q inn out) (hx : x < out)
    (hW : I16Weights q) (hO : NoOverflow30 q out) {P : ℕ → ℕ} (hP : ∀ i, P i ≤ 255) :
    (selectH cpu .preferQuality N sw sh dw dh).value N q x c P =
      fixedRound 255 (q.bound x).size (fun k => q.weight x k) (fun k => P ((q.bound x).start + k)) := by
  obtain ⟨n1, n4⟩ := hN
  have hk : selectH cpu .preferQuality N sw sh dw dh = .scalar ∨ (selectH cpu .preferQuality N sw sh dw dh).exact := by
    interval_cases N <;> unfold selectH <;> simp only
    · split_ifs <;> simp_all [HKernel.exact]
    · split_ifs <;> simp_all [HKernel.exact]
    · rw [if_neg (by simpa using h3)]
      split_ifs <;> simp_all [HKernel.exact]
    · split_ifs <;> simp_all [HKernel.exact]
  rcases hk with hk | hk
  · rw [hk]; rfl
  · rw [← exactRow_value n1 hc hT hx hW hO hP, ← HKernel.row_exact hk N]
    generalize selectH cpu .preferQuality N sw sh dw dh = k at hk
    cases k <;> first | rfl | exact absurd hk (by simp [HKernel.exact])

/-- **C56** (partly). With `PreferQuality` two CPUs give the same picture when the height does not change; and in general when
both have AVX2, or SSE4.1 and rows of at most 32 bytes. (RGB with AVX2 excluded.) -/
theorem C56_cpu_partial {cpu cpu' : Cpu} {W N : ℕ} {L : Lib} {r : ResamplingFunction} {store into out out' : Image ℕ}
    (h : AcceptedX86 W N L r store into)
    (h3 : N ≠ 3 ∨ (cpu.avx2 = false ∧ cpu'.avx2 = false))
    (hv : store.height = into.height ∨
      ((cpu.avx2 = true ∨ (cpu.sse41 = true ∧ store.width * N ≤ 32)) ∧
        (cpu'.avx2 = true ∨ (cpu'.sse41 = true ∧ store.width * N ≤ 32))))
    (ho : genericResize W N (formatX86 cpu .preferQuality N) L r store into = some (.ok (), out))
    (ho' : genericResize W N (formatX86 cpu' .preferQuality N) L r store into = some (.ok (), out')) :
    ∀ y x c, y < into.height → x < into.width → c < N →
      sample out.buffer (into.strideOf N) N y x c = sample out'.buffer (into.strideOf N) N y x c := by
  intro y x c hy hx hcc
  obtain ⟨c1, c2, c3, _⟩ := checkResize_ok.1 h.call.checked
  obtain ⟨vf, ev, _, _⟩ := table_exists L r (out := into.height) c3.2.1 h.call.small.2 (fun ha => (h.call.area ha).2)
  obtain ⟨hf, eh, _, _⟩ := table_exists L r (out := into.width) c3.1 h.call.small.1 (fun ha => (h.call.area ha).1)
  have tv : IsTable L r store.height into.height (numericalApproximation F32.rnd vf) := ⟨vf, ev, rfl⟩
  have th : IsTable L r store.width into.width (numericalApproximation F32.rnd hf) := ⟨hf, eh, rfl⟩
  obtain ⟨Tv, Th, Wv, Wh, e⟩ := x86_result h (Or.inr (Or.inl rfl)) tv th ho
  obtain ⟨_, _, _, _, e'⟩ := x86_result h (Or.inr (Or.inl rfl)) tv th ho'
  rw [e y x c hy hx hcc, e' y x c hy hx hcc]
  congr 1
  have hV : ∀ C : Cpu, (C.avx2 = true ∨ (C.sse41 = true ∧ store.width * N ≤ 32)) → ∀ p P,
      (selectV C .preferQuality store.height into.height).value (numericalApproximation F32.rnd vf) (store.width * N) y p P =
      fixedRound 255 ((numericalApproximation F32.rnd vf).bound y).size
        (fun j => (numericalApproximation F32.rnd vf).weight y j)
        (fun j => P (((numericalApproximation F32.rnd vf).bound y).start + j)) := by
    intro C hC p P
    unfold selectV
    by_cases h1 : C.avx2 = true
    · rw [if_pos h1, if_neg (by simp)]
      rfl
    · obtain ⟨h2, h4⟩ := hC.resolve_left h1
      rw [if_neg h1, if_pos h2, if_neg (by simp)]
      show (if _ then _ else _) = _
      rw [if_neg (by omega)]
  have hO := h.noOverflow.2 _ th
  have main : ∀ C : Cpu, (N ≠ 3 ∨ C.avx2 = false) →
      (store.height = into.height ∨ (C.avx2 = true ∨ (C.sse41 = true ∧ store.width * N ≤ 32))) →
      sepAbs store.width store.height into.width into.height
        (fun y x c => (selectV C .preferQuality store.height into.height).value (numericalApproximation F32.rnd vf)
          (store.width * N) y (x * N + c))
        (fun x c => (selectH C .preferQuality N store.width into.height into.width into.height).value N
          (numericalApproximation F32.rnd hf) x c) c
        (fun y x => pxD 0 store.buffer (store.strideOf N) N y x c) y x =
      separable store.width store.height into.width into.height
        (fun i => ((numericalApproximation F32.rnd vf).bound i).start)
        (fun i p => fixedRound 255 ((numericalApproximation F32.rnd vf).bound i).size
          (fun k => (numericalApproximation F32.rnd vf).weight i k) p)
        (fun i => ((numericalApproximation F32.rnd hf).bound i).start)
        (fun i p => fixedRound 255 ((numericalApproximation F32.rnd hf).bound i).size
          (fun k => (numericalApproximation F32.rnd hf).weight i k) p)
        (fun y x => pxD 0 store.buffer (store.strideOf N) N y x c) y x := by
    intro C hC3 hCv
    refine sep_of_abs (pxD_byte h.bytes N c) (fun _ _ _ _ => VKernel.value_le _ _ _ _ _ _) ?_ ?_
    · intro hne x' P _
      exact hV C (hCv.resolve_left hne) _ _
    · intro _ P hP
      exact quality_h_value h.call.channels hC3 hcc Th hx Wh hO hP
  rw [main cpu, main cpu']
  · rcases h3 with h3 | h3
    · exact Or.inl h3
    · exact Or.inr h3.2
  · rcases hv with hv | hv
    · exact Or.inl hv
    · exact Or.inr hv.2
  · rcases h3 with h3 | h3
    · exact Or.inl h3
    · exact Or.inr h3.1
  · rcases hv with hv | hv
    · exact Or.inl hv
    · exact Or.inr hv.1

/-- **C56 fails**: the average of 3 and 4 is 3 on a CPU without SSE4.1 (the scalar vertical pass truncates) and 4 on
one with AVX2 (the vector handlers round), also with `PreferQuality`. -/
theorem C56_violated :
    genericResize (2 ^ 64) 1 (formatX86 ⟨false, false⟩ .preferQuality 1) demoLib .bilinear
      ⟨[3, 4], 1, 1, 2, 1, 8⟩ ⟨[7], 1, 1, 1, 1, 8⟩ = some (.ok (), ⟨[3], 1, 1, 1, 1, 8⟩) ∧
    genericResize (2 ^ 64) 1 (formatX86 ⟨true, true⟩ .preferQuality 1) demoLib .bilinear
      ⟨[3, 4], 1, 1, 2, 1, 8⟩ ⟨[7], 1, 1, 1, 1, 8⟩ = some (.ok (), ⟨[4], 1, 1, 1, 1, 8⟩) := by
  decide +kernel

example : ∀ cpu : Cpu, ∃ out, genericResize (2 ^ 64) 4 (formatX86 cpu .preferQuality 4) demoLib .bilinear
    Demo.xsrc Demo.xdst = some (.ok (), out) := fun cpu => by
  obtain ⟨out, h, _⟩ := C52_no_oob (cpu := cpu) (L := demoLib) Demo.xcall (Or.inr (Or.inl rfl))
  exact ⟨out, h⟩

end PicScale
