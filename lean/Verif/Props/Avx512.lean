import Verif.Lemmas.Avx512Resize
import Verif.Props.X86

/-!
Property theorems about 8-bit resizes on x86 with the feature `nightly_avx512`: the AVX-512 column code and
the AVX-VNNI row code.
-/

namespace PicScale

open Finset Spec

/-! ### C221: AVX-512 does not change the result -/

/-- **C221.** The AVX-512 column code gives exactly the image the AVX2 code gives, whatever the samples (even
if accumulators overflow), for every accepted call that does not use the VNNI row code. -/
theorem C221_same_as_avx2 {cpu : Cpu512} (hr : cpu.Real) {s : Workload} {W N : ℕ} {L : Lib}
    {r : ResamplingFunction} {store into : Image ℕ} (h : AcceptedCall W N r store into)
    (hn : N ≠ 4 ∨ cpu.vnni = false ∨ store.width = into.width) :
    genericResize W N (format512 cpu s N) L r store into =
      genericResize W N (formatX86 cpu.base s N) L r store into := by
  obtain ⟨c1, c2, c3, _⟩ := checkResize_ok.1 h.checked
  obtain ⟨vf, ev, Tv, Sv⟩ := table_exists L r (out := into.height) c3.2.1 h.small.2 (fun ha => (h.area ha).2)
  obtain ⟨hf, eh, Th, Sh⟩ := table_exists L r (out := into.width) c3.1 h.small.1 (fun ha => (h.area ha).1)
  have e := convolve_congr (W := W) (N := N) (F := format512 cpu s N) (G := formatX86 cpu.base s N)
    (okT := fun fw out => PlainShape fw out) rfl
    (fun src dst fw hs hd hw hdw hT hO => by
      obtain ⟨out, o1, o2, o3, _⟩ := vertical512_total hr (s := s) h.channels.1 hs hd hw hdw (hO.q_valid (ρ := F32.rnd) hT)
      exact ⟨out, o1, o2, o3⟩)
    (table := tableOf L r) (store := store) (into := into) (vf := vf) (hf := hf)
    (fun hne src dst fw _ _ _ _ _ _ _ => by
      show horizontal512 cpu s N src dst _ = horizontalX86 cpu.base _ N src dst _
      unfold horizontal512 usesVnni
      rw [if_neg]
      simp only [Bool.and_eq_true, decide_eq_true_eq, not_and, Bool.not_eq_true]
      intro h4
      rcases hn with hn | hn | hn
      · exact absurd h4 hn
      · exact hn
      · exact absurd hn hne)
    c2 c1 c3.1 c3.2.2.1 h.sizes h.fits ev eh Tv Th Sv Sh
  unfold genericResize
  rw [e]
  rfl

def Demo.cpu512 : Cpu512 := ⟨⟨true, true⟩, true, false, true⟩
def Demo.cpuVnni : Cpu512 := ⟨⟨true, true⟩, true, true, true⟩

theorem Demo.cpu512Real : Demo.cpu512.Real ∧ Demo.cpuVnni.Real :=
  ⟨⟨fun _ => rfl, fun _ => rfl⟩, ⟨fun _ => rfl, fun _ => rfl⟩⟩

example : AcceptedCall (2 ^ 64) 4 .bilinear Demo.xsrc Demo.xdst ∧ Demo.cpu512.Real ∧
    uses512V Demo.cpu512 .preferSpeed Demo.xsrc.height Demo.xdst.height = true ∧ Demo.cpu512.vnni = false :=
  ⟨Demo.xcall, Demo.cpu512Real.1, by decide +kernel, rfl⟩

/-! ### C222: no access out of bounds -/

/-- **C222.** With AVX-512 and VNNI, whatever the strategy, an accepted resize returns `Ok`: no load, store or
slice is outside its buffer (it would be `none` in the model), whatever the samples, and nothing but the
destination's pixels is written. -/
theorem C222_no_oob {cpu : Cpu512} (hr : cpu.Real) (ha : cpu.base.avx2 = true) {s : Workload} {W N : ℕ} {L : Lib}
    {r : ResamplingFunction} {store into : Image ℕ} (h : AcceptedCall W N r store into) :
    ∃ out, genericResize W N (format512 cpu s N) L r store into = some (.ok (), out) ∧
      SameShape out into ∧ PaddingKept N into out := by
  by_cases hn : N ≠ 4 ∨ cpu.vnni = false ∨ store.width = into.width
  · rw [C221_same_as_avx2 hr h hn]
    exact C52_no_oob h (Or.inr (Or.inr (Or.inl ha)))
  · simp only [not_or, not_not, Bool.not_eq_false] at hn
    obtain ⟨rfl, hv, _⟩ := hn
    obtain ⟨c1, c2, c3, _⟩ := checkResize_ok.1 h.checked
    obtain ⟨vf, ev, Tv, Sv⟩ := table_exists L r (out := into.height) c3.2.1 h.small.2 (fun ha => (h.area ha).2)
    obtain ⟨hf, eh, Th, Sh⟩ := table_exists L r (out := into.width) c3.1 h.small.1 (fun ha => (h.area ha).1)
    obtain ⟨out, o1, o2, o3⟩ := convolve_total (W := W) (N := 4) (F := format512 cpu s 4)
      (okT := fun fw out => PlainShape fw out)
      (fun src dst fw hs hd hw hdw hT hO => by
        obtain ⟨out, o1, _, o3, o4⟩ := vertical512_total hr (s := s) (by omega) hs hd hw hdw (hO.q_valid (ρ := F32.rnd) hT)
        exact ⟨out, o1, o3, o4⟩)
      (fun src dst fw hs hd hh hsw hdw hT hO => by
        obtain ⟨out, o1, o3, o4, _⟩ := horizontalVnni_raw hv (s := s) hs hd hh hsw hdw (hO.q_valid (ρ := F32.rnd) hT)
        exact ⟨out, o1, o3, o4⟩)
      (table := tableOf L r) c2 c1 c3.1 c3.2.2.1 h.sizes h.fits ev eh Tv Th Sv Sh
    exact ⟨out, genericResize_conv h.checked h.filter h.sizes o1, o2, o3⟩

example : AcceptedCall (2 ^ 64) 4 .bilinear Demo.xsrc Demo.xdst ∧ Demo.cpuVnni.Real ∧
    Demo.cpuVnni.base.avx2 = true ∧ usesVnni Demo.cpuVnni 4 = true :=
  ⟨Demo.xcall, Demo.cpu512Real.2, rfl, rfl⟩

/-! ### C223: the values of the VNNI code -/

theorem vnni_values {cpu : Cpu512} (hr : cpu.Real) (hv : cpu.vnni = true) {s : Workload} {W : ℕ} {L : Lib}
    {r : ResamplingFunction} {store into : Image ℕ} (h : AcceptedX86 W 4 L r store into) :
    ∃ qv qh out, IsTable L r store.height into.height qv ∧ IsTable L r store.width into.width qh ∧
      ValidTable qv store.height into.height ∧ ValidTable qh store.width into.width ∧
      I16Weights qv ∧ I16Weights qh ∧
      genericResize W 4 (format512 cpu s 4) L r store into = some (.ok (), out) ∧
      SameShape out into ∧ PaddingKept 4 into out ∧
      ∀ y x c, y < into.height → x < into.width → c < 4 →
        sample out.buffer (into.strideOf 4) 4 y x c = some
          (sepAbs store.width store.height into.width into.height
            (fun y x c => (selectV cpu.base s store.height into.height).value qv (store.width * 4) y (x * 4 + c))
            (fun x c P => vnniRowVal (vnniLd into.height y) (qh.kernel x) (qh.bound x) (fun i => P (i / 4)) c) c
            (fun y x => pxD 0 store.buffer (store.strideOf 4) 4 y x c) y x) := by
  obtain ⟨c1, c2, c3, _⟩ := checkResize_ok.1 h.call.checked
  obtain ⟨vf, ev, Tv, Sv⟩ := table_exists L r (out := into.height) c3.2.1 h.call.small.2 (fun ha => (h.call.area ha).2)
  obtain ⟨hf, eh, Th, Sh⟩ := table_exists L r (out := into.width) c3.1 h.call.small.1 (fun ha => (h.call.area ha).1)
  obtain ⟨out, o1, o2, o3, o4⟩ := convolve_pos (W := W) (passPos_vnni hr hv s) (by omega)
    (table := tableOf L r) c2 c1 c3.1 c3.2.2.1 h.call.sizes h.call.fits ev eh Tv Th
    ⟨Sv, h.noOverflow.1 _ ⟨vf, ev, rfl⟩⟩ ⟨Sh, h.noOverflow.2 _ ⟨hf, eh, rfl⟩⟩ h.bytes
  exact ⟨_, _, out, ⟨vf, ev, rfl⟩, ⟨hf, eh, rfl⟩, Sv.q_valid Tv, Sh.q_valid Th, q_i16 Sv Tv, q_i16 Sh Th,
    genericResize_conv h.call.checked h.call.filter h.call.sizes o1, o2, o3, o4⟩

/-- `sep_of_abs` for passes that look at the row. -/
theorem sepAt_of_abs {sw sh dw dh : ℕ} {vv : ℕ → ℕ → ℕ → (ℕ → ℕ) → ℕ} {hv : ℕ → ℕ → (ℕ → ℕ) → ℕ}
    {vs hs : ℕ → ℕ} {vvs hvs : ℕ → ℕ → (ℕ → ℕ) → ℕ} {c y x : ℕ} {p : ℕ → ℕ → ℕ} (hp : ∀ y x, p y x ≤ 255)
    (hvle : ∀ y x c P, vv y x c P ≤ 255)
    (h1 : sh ≠ dh → ∀ x' P, (∀ i, P i ≤ 255) → vv y x' c P = vvs y x' (fun k => P (vs y + k)))
    (h2 : sw ≠ dw → ∀ P, (∀ i, P i ≤ 255) → hv x c P = hvs y x (fun k => P (hs x + k))) :
    sepAbs sw sh dw dh vv hv c p y x = separableAt sw sh dw dh vs vvs hs hvs p y x := by
  have hcol : ∀ x', (if sh = dh then p y x' else vv y x' c (fun y' => p y' x')) =
      (if sh = dh then p y x' else vvs y x' (fun k => p (vs y + k) x')) := by
    intro x'
    by_cases hd : sh = dh
    · rw [if_pos hd, if_pos hd]
    · rw [if_neg hd, if_neg hd, h1 hd x' _ fun i => hp i x']
  unfold sepAbs separableAt
  simp only
  by_cases hd : sw = dw
  · rw [if_pos hd, if_pos hd, hcol]
  · rw [if_neg hd, if_neg hd, h2 hd]
    · congr 1
      funext k
      exact hcol _
    · intro i
      split_ifs
      · exact hp _ _
      · exact hvle _ _ _ _

/-- **C223.** An RGBA resize on a CPU with AVX-VNNI: columns are filtered as with AVX2 (the low precision sum for
"prefer speed" and ratios below 8, otherwise rounded to nearest); rows are the fixed point sum rounded to
nearest whatever the strategy, except that in the last `height mod 4` rows windows of at most four taps are
rounded down after adding 15/32768 only. -/
theorem C223_vnni_values {cpu : Cpu512} (hr : cpu.Real) (hv : cpu.vnni = true) {s : Workload} {W : ℕ} {L : Lib}
    {r : ResamplingFunction} {store into : Image ℕ} (h : AcceptedX86 W 4 L r store into)
    (h16 : s = .preferSpeed → BothTables L r store into NoOverflow16) :
    ∃ qv qh out, IsTable L r store.height into.height qv ∧ IsTable L r store.width into.width qh ∧
      ValidTable qv store.height into.height ∧ ValidTable qh store.width into.width ∧
      genericResize W 4 (format512 cpu s 4) L r store into = some (.ok (), out) ∧
      SameShape out into ∧ PaddingKept 4 into out ∧
      ∀ y x c, y < into.height → x < into.width → c < 4 →
        sample out.buffer (into.strideOf 4) 4 y x c = some
          (separableAt store.width store.height into.width into.height
            (fun i => (qv.bound i).start)
            (fun i _ p => if below8 store.height into.height ∧ s = .preferSpeed then
                fixedLow (qv.bound i).size (fun k => qv.weight i k) p
              else fixedRound 255 (qv.bound i).size (fun k => qv.weight i k) p)
            (fun i => (qh.bound i).start)
            (fun y i p => if y < into.height / 4 * 4 ∨ 4 < (qh.bound i).size then
                fixedRound 255 (qh.bound i).size (fun k => qh.weight i k) p
              else fixedBias 15 (qh.bound i).size (fun k => qh.weight i k) p)
            (fun y x => pxD 0 store.buffer (store.strideOf 4) 4 y x c) y x) := by
  obtain ⟨qv, qh, out, tv, th, Tv, Th, Wv, Wh, o1, o2, o3, o4⟩ := vnni_values hr hv (s := s) h
  refine ⟨qv, qh, out, tv, th, Tv, Th, o1, o2, o3, fun y x c hy hx hc => ?_⟩
  rw [o4 y x c hy hx hc]
  congr 1
  refine sepAt_of_abs (pxD_byte h.bytes 4 c) (fun _ _ _ _ => VKernel.value_le _ _ _ _ _ _) ?_ ?_
  · intro hne x' P hP
    unfold selectV
    rw [if_pos (hr.vnni hv)]
    by_cases hl : below8 store.height into.height ∧ s = .preferSpeed
    · rw [if_pos hl, if_pos hl]
      show lowMachine _ _ _ = _
      exact lowMachine_value hy rfl Wv ((h16 hl.2).1 qv tv) fun i => hP _
    · rw [if_neg hl, if_neg hl]
      rfl
  · intro hne P hP
    exact vnniRowVal_value hc Th hx Wh (h.noOverflow.2 qh th) hP

/-- The hypotheses hold of an RGBA image with two rows, which both are "last rows". -/
example : AcceptedX86 (2 ^ 64) 4 demoLib .bilinear Demo.xsrc Demo.xdst ∧
    BothTables demoLib .bilinear Demo.xsrc Demo.xdst NoOverflow16 ∧ Demo.cpuVnni.Real ∧
    Demo.cpuVnni.vnni = true ∧ Demo.xdst.height / 4 * 4 = 0 :=
  ⟨Demo.xaccepted, Demo.x16, Demo.cpu512Real.2, rfl, rfl⟩

/-! ### C224: equal rows stay equal -/

/-- **C224** (partly). Only the width changes: equal rows of the source give equal rows of the destination if both
are among the last `height mod 4` rows or neither is, or if all windows have more than four taps. -/
theorem C224_equal_rows_partial {cpu : Cpu512} (hr : cpu.Real) (hv : cpu.vnni = true) {s : Workload} {W : ℕ} {L : Lib}
    {r : ResamplingFunction} {store into out : Image ℕ} (h : AcceptedX86 W 4 L r store into)
    (hh : store.height = into.height) {y y' : ℕ} (hy : y < into.height) (hy' : y' < into.height)
    (heq : ∀ x c, c < 4 → pxD 0 store.buffer (store.strideOf 4) 4 y x c = pxD 0 store.buffer (store.strideOf 4) 4 y' x c)
    (hrow : (y < into.height / 4 * 4 ↔ y' < into.height / 4 * 4) ∨
      ∀ q, IsTable L r store.width into.width q → ∀ x, x < into.width → 4 < (q.bound x).size)
    (hout : genericResize W 4 (format512 cpu s 4) L r store into = some (.ok (), out))
    {x c : ℕ} (hx : x < into.width) (hc : c < 4) :
    sample out.buffer (into.strideOf 4) 4 y x c = sample out.buffer (into.strideOf 4) 4 y' x c := by
  obtain ⟨qv, qh, out', tv, th, Tv, Th, Wv, Wh, o1, o2, o3, o4⟩ := vnni_values hr hv (s := s) h
  rw [o1] at hout
  obtain rfl := (Prod.mk.inj (Option.some.inj hout)).2
  have hw : store.width ≠ into.width := by
    rcases h.call.sizes with hw | hw
    · exact hw
    · exact absurd hh hw
  rw [o4 y x c hy hx hc, o4 y' x c hy' hx hc]
  unfold sepAbs
  simp only [if_pos hh, if_neg hw]
  rw [vnniRowVal_value hc Th hx Wh (h.noOverflow.2 qh th) (fun i => pxD_byte h.bytes 4 c y i),
    vnniRowVal_value hc Th hx Wh (h.noOverflow.2 qh th) (fun i => pxD_byte h.bytes 4 c y' i)]
  simp only [heq _ c hc]
  have : (y < into.height / 4 * 4 ∨ 4 < (qh.bound x).size) ↔ (y' < into.height / 4 * 4 ∨ 4 < (qh.bound x).size) := by
    rcases hrow with hrow | hrow
    · rw [hrow]
    · have := hrow qh th x hx
      tauto
  simp only [this]

/-- **C224 fails**: widening a white, opaque 3 × 5 image to 5 × 5 with the VNNI code gives white rows, but the last
row, which is equal to the others in the source, gets samples 254 — its alpha too. With the AVX2 code all
samples are 255. -/
theorem C224_violated :
    genericResize (2 ^ 64) 4 (format512 Demo.cpuVnni .preferQuality 4) demoLib .bilinear
      ⟨List.replicate 60 255, 4, 3, 5, 12, 8⟩ ⟨List.replicate 100 7, 4, 5, 5, 20, 8⟩ =
      some (.ok (), ⟨List.replicate 80 255 ++ [254, 254, 254, 254, 255, 255, 255, 255, 254, 254, 254, 254,
        255, 255, 255, 255, 254, 254, 254, 254], 4, 5, 5, 20, 8⟩) ∧
    genericResize (2 ^ 64) 4 (formatX86 ⟨true, true⟩ .preferQuality 4) demoLib .bilinear
      ⟨List.replicate 60 255, 4, 3, 5, 12, 8⟩ ⟨List.replicate 100 7, 4, 5, 5, 20, 8⟩ =
      some (.ok (), ⟨List.replicate 100 255, 4, 5, 5, 20, 8⟩) := by
  decide +kernel

/-! ### C225: the VNNI code against the AVX2 code -/

theorem clamp_mono' {hi : ℕ} {a b : ℤ} (h : a ≤ b) : clamp hi a ≤ clamp hi b := by
  unfold clamp; omega

theorem clamp_succ {hi : ℕ} {a b : ℤ} (h : a ≤ b + 1) : clamp hi a ≤ clamp hi b + 1 := by
  unfold clamp; omega

/-- Rounding down after adding 15/32768 is at most one below rounding to nearest. -/
theorem fixedBias_round (n : ℕ) (w : ℕ → ℤ) (p : ℕ → ℕ) :
    fixedBias 15 n w p ≤ fixedRound 255 n w p ∧ fixedRound 255 n w p ≤ fixedBias 15 n w p + 1 := by
  unfold fixedBias fixedRound fixRound
  constructor
  · refine clamp_mono' (Int.floor_le_floor ?_)
    push_cast; linarith
  · refine clamp_succ ?_
    rw [← Int.floor_add_one]
    refine Int.floor_le_floor ?_
    push_cast; linarith

/-- **C225.** With `PreferQuality`, every sample of an RGBA resize with the VNNI code is the sample of the AVX2
code or one less; it is the same in the rows before the last `height mod 4`, and wherever the window has
more than four taps. -/
theorem C225_vnni_vs_avx2 {cpu : Cpu512} (hr : cpu.Real) (hv : cpu.vnni = true) {W : ℕ} {L : Lib}
    {r : ResamplingFunction} {store into : Image ℕ} (h : AcceptedX86 W 4 L r store into) :
    ∃ a b qh, genericResize W 4 (format512 cpu .preferQuality 4) L r store into = some (.ok (), a) ∧
      genericResize W 4 (formatX86 cpu.base .preferQuality 4) L r store into = some (.ok (), b) ∧
      IsTable L r store.width into.width qh ∧
      ∀ y x c, y < into.height → x < into.width → c < 4 →
        ∃ va vb, sample a.buffer (into.strideOf 4) 4 y x c = some va ∧
          sample b.buffer (into.strideOf 4) 4 y x c = some vb ∧ va ≤ vb ∧ vb ≤ va + 1 ∧
          (y < into.height / 4 * 4 ∨ 4 < (qh.bound x).size → va = vb) := by
  obtain ⟨qv, qh, a, tv, th, Tv, Th, a1, a2, a3, a4⟩ := C223_vnni_values hr hv (s := .preferQuality) h
    (fun e => by cases e)
  obtain ⟨qv', qh', b, tv', th', Tv', Th', b1, b2, b3, b4⟩ := C53_quality_partial (cpu := cpu.base) h
    (Or.inl ⟨hr.vnni hv, Or.inl (by omega)⟩)
  obtain rfl := isTable_unique tv tv'
  obtain rfl := isTable_unique th th'
  refine ⟨a, b, qh, a1, b1, th, fun y x c hy hx hc => ⟨_, _, a4 y x c hy hx hc, b4 y x c hy hx hc, ?_⟩⟩
  unfold separableAt separable
  simp only [reduceCtorEq, and_false, if_false]
  by_cases hw : store.width = into.width
  · simp only [if_pos hw]
    exact ⟨le_rfl, by omega, fun _ => trivial⟩
  · simp only [if_neg hw]
    by_cases hk : y < into.height / 4 * 4 ∨ 4 < (qh.bound x).size
    · rw [if_pos hk]
      exact ⟨le_rfl, by omega, fun _ => rfl⟩
    · rw [if_neg hk]
      obtain ⟨e1, e2⟩ := fixedBias_round (qh.bound x).size (fun k => qh.weight x k) (fun k =>
        if store.height = into.height then
          pxD 0 store.buffer (store.strideOf 4) 4 y ((qh.bound x).start + k) c
        else fixedRound 255 (qv.bound y).size (fun k => qv.weight y k)
          (fun k_1 => pxD 0 store.buffer (store.strideOf 4) 4 ((qv.bound y).start + k_1) ((qh.bound x).start + k) c))
      exact ⟨e1, e2, fun hk' => absurd hk' hk⟩

/-- The hypotheses hold of the RGBA example, and the two codes do differ there. -/
example : AcceptedX86 (2 ^ 64) 4 demoLib .bilinear Demo.xsrc Demo.xdst ∧
    (genericResize (2 ^ 64) 4 (format512 Demo.cpuVnni .preferQuality 4) demoLib .bilinear Demo.xsrc Demo.xdst).map
      (fun r => r.2.buffer) ≠
    (genericResize (2 ^ 64) 4 (formatX86 ⟨true, true⟩ .preferQuality 4) demoLib .bilinear Demo.xsrc Demo.xdst).map
      (fun r => r.2.buffer) :=
  ⟨Demo.xaccepted, by decide +kernel⟩

end PicScale
