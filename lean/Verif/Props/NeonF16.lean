import Verif.Lemmas.NeonF16Err

/-!
Property theorems about resizes of 16-bit floating point images on AArch64: C233–C240.
-/

namespace PicScale

open Spec Finset

variable {H A : Type}

/-- An AArch64 CPU with everything the f16 code asks for, and one with conversions only. -/
def Demo.armNew : NeonHalfCpu := ⟨true, true, true⟩
def Demo.armOld : NeonHalfCpu := ⟨true, false, false⟩

/-! ### C233: no out-of-bounds access -/

/-- **C233.** On every AArch64 CPU (with or without `f16c`, `fp16`, `fhm`), for both workload strategies, an accepted
resize of f16 images with any number of channels and any samples, for any arithmetic and any conversion, returns
normally, reads nothing outside the buffers and leaves the destination's size, stride and length alone. -/
theorem C233_neon_f16_no_oob {W N : ℕ} {L : Lib} {r : ResamplingFunction} {store into : Image H}
    (ha : AcceptedF W N r store into) (cpu : NeonHalfCpu) (st : Workload) (o : HalfOps H A) (h : VecOps H) :
    ∃ out, genericResize W N (formatF16Neon cpu st o h N) L r store into = some (.ok (), out) ∧ SameShape out into := by
  obtain ⟨_, _, out, _, _, _, _, o1, o2, _⟩ := resize_neonH (L := L) ha cpu st o h
  exact ⟨out, o1, o2⟩

example : ∃ out, genericResize (2 ^ 64) 3 (formatF16Neon Demo.armNew .preferSpeed F16.halfBits F16.halfVec 3) demoLib .bilinear
    (Demo.hx 3 6 3) (Demo.hz 3 2 3) = some (.ok (), out) ∧ SameShape out (Demo.hz 3 2 3) :=
  C233_neon_f16_no_oob Demo.hcallH _ _ _ _

/-! ### C234: bytes outside the pixels -/

/-- **C234 (partial).** A resize that keeps the width, and any resize of three- and four-channel f16 images on a CPU
with `f16c`, writes nothing but pixels. -/
theorem C234_neon_f16_padding_partial {W N : ℕ} {L : Lib} {r : ResamplingFunction} {store into : Image H}
    (ha : AcceptedF W N r store into) (cpu : NeonHalfCpu) (st : Workload) (o : HalfOps H A) (h : VecOps H)
    (hp : store.width = into.width ∨ (3 ≤ N ∧ cpu.f16c = true)) :
    ∃ out, genericResize W N (formatF16Neon cpu st o h N) L r store into = some (.ok (), out) ∧ PaddingKept N into out := by
  obtain ⟨_, _, out, _, _, _, _, o1, _, o3, _⟩ := resize_neonH (L := L) ha cpu st o h
  refine ⟨out, o1, ?_⟩
  rw [← paddingMapped_id]
  have hN := ha.channels
  by_cases hw : store.width = into.width
  · rwa [if_pos hw] at o3
  · rw [if_neg hw] at o3
    obtain ⟨h3, hc⟩ := hp.resolve_left hw
    unfold hpadNeonH at o3
    rwa [if_neg] at o3
    unfold pathH pathV
    rw [hc]
    rcases Nat.lt_or_ge 3 N with h4 | h4
    · rw [if_pos (show N = 4 by omega)]
      cases st <;> simp <;> split_ifs <;> simp
    · rw [if_neg (show N ≠ 4 by omega), if_pos (show N = 3 by omega)]
      cases st <;> simp <;> split_ifs <;> simp

example : ∃ out, genericResize (2 ^ 64) 4 (formatF16Neon Demo.armOld .preferQuality F16.halfBits F16.halfVec 4) demoLib .bilinear
    (Demo.hx 4 6 5) (Demo.hz 4 2 3) = some (.ok (), out) ∧ PaddingKept 4 (Demo.hz 4 2 3) out :=
  C234_neon_f16_padding_partial Demo.hcall4 _ _ _ _ (by decide)

/-- Every other f16 resize — one and two channels on every CPU, and four without `f16c` — fills all padding of the
destination with the half of zero. -/
theorem C234_neon_f16_padding_zeroed {W N : ℕ} {L : Lib} {r : ResamplingFunction} {store into : Image H}
    (ha : AcceptedF W N r store into) (cpu : NeonHalfCpu) (st : Workload) (o : HalfOps H A) (h : VecOps H)
    (hw : store.width ≠ into.width) (hp : N ≤ 2 ∨ (N = 4 ∧ cpu.f16c = false)) :
    ∃ out, genericResize W N (formatF16Neon cpu st o h N) L r store into = some (.ok (), out) ∧
      ∀ p, p < into.buffer.length → ¬ IsPixelPos (into.strideOf N) N into.width into.height p →
        out.buffer[p]? = some (o.narrow o.arith.zero) := by
  obtain ⟨_, _, out, _, _, _, _, o1, _, o3, _⟩ := resize_neonH (L := L) ha cpu st o h
  refine ⟨out, o1, fun p hl hpp => ?_⟩
  rw [if_neg hw] at o3
  have := o3 p hpp
  unfold hpadNeonH at this
  rw [this, List.getElem?_eq_getElem hl, Option.map_some, if_pos]
  unfold pathH
  rcases hp with hp | ⟨rfl, hp⟩
  · rw [if_neg (by omega), if_neg (by omega)]
  · rw [if_pos rfl]
    unfold pathV
    rw [hp]
    rfl

/-- The padding of a one-channel f16 image is overwritten, on the newest CPU. -/
theorem C234_violated : ∃ out, genericResize (2 ^ 64) 1 (formatF16Neon Demo.armNew .preferQuality F16.halfBits F16.halfVec 1)
    demoLib .bilinear (Demo.hx 1 6 5) (Demo.hz 1 2 3) = some (.ok (), out) ∧ ¬ PaddingKept 1 (Demo.hz 1 2 3) out := by
  obtain ⟨out, o1, o2⟩ := C234_neon_f16_padding_zeroed (L := demoLib) Demo.hcall1 Demo.armNew .preferQuality F16.halfBits
    F16.halfVec (by decide) (Or.inl (by decide))
  have hnp : ¬ IsPixelPos ((Demo.hz 1 2 3).strideOf 1) 1 (Demo.hz 1 2 3).width (Demo.hz 1 2 3).height 2 := by
    rintro ⟨y, x, c, h1, h2, h3, h4⟩
    have e : (Demo.hz 1 2 3).strideOf 1 = 4 := by decide
    rw [e] at h4
    have e2 : (Demo.hz 1 2 3).width = 2 := by decide
    rw [e2] at h2
    omega
  refine ⟨out, o1, fun hk => ?_⟩
  have a := o2 2 (by decide) hnp
  have b := hk 2 hnp
  rw [a] at b
  have e : F16.halfBits.narrow F16.halfBits.arith.zero = 0 := by decide +kernel
  rw [e] at b
  exact absurd b (by decide)

/-! ### C235: values -/

theorem pathH_right {cpu : NeonHalfCpu} {st : Workload} {N n : ℕ} {four : Prop} [Decidable four]
    (h : TapsRight cpu st N n four) {k c : ℕ} (hk : k < n) :
    tapUsed (pathH cpu st N) N (decide four) n k c = (k, c) := by
  apply tapUsed_right hk
  rcases h with h | ⟨h, h'⟩ | ⟨h, h'⟩
  · left
    unfold pathH
    rw [if_neg (by omega), if_neg (by omega)]
  · by_cases hp : pathH cpu st N = .portable
    · exact Or.inl hp
    · refine Or.inr (Or.inl ⟨by omega, fun hf => h' ?_⟩)
      unfold pathH at hf
      rw [if_neg (by omega), if_pos h] at hf
      cases st with
      | preferQuality => simp only at hf; split_ifs at hf
      | preferSpeed =>
        simp only at hf
        split_ifs at hf with h1 h2
        exact ⟨rfl, h1⟩
  · rcases h' with h' | h'
    · left
      unfold pathH pathV
      rw [if_pos h, h']
      rfl
    · refine Or.inr (Or.inr ⟨h, h'.imp id fun h2 => ⟨decide_eq_true h2.1, h2.2⟩⟩)

/-- **C235.** On AArch64, with binary32 arithmetic, any conversions and any half arithmetic: resizes of f16 images
with one, two and three channels — three: unless the workload prefers speed and the CPU has `fp16` — and all resizes
that keep the width, give in every destination sample the separable resize of its channel. Each pass is the sum
`neonSum` of its window: fused multiply-adds from left to right, in binary32 (with `fhm` and quality preferred, the
weights are rounded to halves first), or in halves when speed is preferred and the CPU has `fp16`. -/
theorem C235_neon_f16_value {W N : ℕ} {L : Lib} {r : ResamplingFunction} {store into : Image H}
    (ha : AcceptedF W N r store into) (cpu : NeonHalfCpu) (st : Workload) (o : HalfOps H ℚ) (ho : o.arith = ratOps)
    (h : VecOps H)
    (hk : store.width = into.width ∨ N ≤ 2 ∨ (N = 3 ∧ ¬ (st = .preferSpeed ∧ cpu.fp16 = true))) :
    ∃ vf hf out, tableOf L r store.height into.height = some vf ∧ tableOf L r store.width into.width = some hf ∧
      ValidTable vf store.height into.height ∧ ValidTable hf store.width into.width ∧
      genericResize W N (formatF16Neon cpu st o h N) L r store into = some (.ok (), out) ∧
      ∀ y x c, y < into.height → x < into.width → c < N →
        sample out.buffer (into.strideOf N) N y x c = some
          (separable store.width store.height into.width into.height
            (fun i => (vf.bound i).start)
            (fun i p => o.neonSum h (pathV cpu st) p (fun k => vf.weight i k) (vf.bound i).size)
            (fun i => (hf.bound i).start)
            (fun i p => o.neonSum h (pathH cpu st N) p (fun k => hf.weight i k) (hf.bound i).size)
            (fun y x => pxD o.zeroH store.buffer (store.strideOf N) N y x c) y x) := by
  obtain ⟨vf, hf, out, ev, eh, Tv, Th, o1, o2⟩ := neonH_taps (L := L) ha cpu st o ho h
  refine ⟨vf, hf, out, ev, eh, Tv, Th, o1, fun y x c hy hx hc => ?_⟩
  rw [o2 y x c hy hx hc]
  refine congrArg some ?_
  unfold separable
  dsimp only
  by_cases hw : store.width = into.width
  · rw [if_pos hw, if_pos hw]
  · rw [if_neg hw, if_neg hw]
    refine neonSum_congr o h _ (Th.size_pos x hx) ho (fun k hk' => ?_)
    have := pathH_right (cpu := cpu) (st := st) (N := N) (four := y < into.height / 4 * 4) (n := (hf.bound x).size)
      ((hk.resolve_left hw).imp id Or.inl) (c := c) hk'
    rw [this]

example :=
  C235_neon_f16_value (L := demoLib) Demo.hcallH Demo.armNew .preferQuality F16.halfBits rfl F16.halfVec (by decide)

/-! ### C236: four channels -/

/-- **C236 (partial).** RGBA images whose width changes: the same formula, for pixels whose horizontal window has up
to four pixels, and in rows of a group of four also 9–12, 17–20, … pixels; and on CPUs without `f16c`. In general the
weight of tap `k` meets pixel `rgbaPixelUsed` of the window: the fourth tap of a step of four takes the second pixel of
the step. -/
theorem C236_neon_rgba_value_partial {W : ℕ} {L : Lib} {r : ResamplingFunction} {store into : Image H}
    (ha : AcceptedF W 4 r store into) (cpu : NeonHalfCpu) (st : Workload) (o : HalfOps H ℚ) (ho : o.arith = ratOps)
    (h : VecOps H) :
    ∃ vf hf out, tableOf L r store.height into.height = some vf ∧ tableOf L r store.width into.width = some hf ∧
      ValidTable vf store.height into.height ∧ ValidTable hf store.width into.width ∧
      genericResize W 4 (formatF16Neon cpu st o h 4) L r store into = some (.ok (), out) ∧
      ∀ y x c, y < into.height → x < into.width → c < 4 →
        let sep := fun used : ℕ → ℕ → ℕ => separable store.width store.height into.width into.height
            (fun i => (vf.bound i).start)
            (fun i p => o.neonSum h (pathV cpu st) p (fun k => vf.weight i k) (vf.bound i).size)
            (fun i => (hf.bound i).start)
            (fun i p => o.neonSum h (pathV cpu st) (fun k => p (used (hf.bound i).size k)) (fun k => hf.weight i k)
              (hf.bound i).size)
            (fun y x => pxD o.zeroH store.buffer (store.strideOf 4) 4 y x c) y x
        (cpu.f16c = true → sample out.buffer (into.strideOf 4) 4 y x c =
          some (sep (rgbaPixelUsed (decide (y < into.height / 4 * 4))))) ∧
        (cpu.f16c = false ∨ (hf.bound x).size ≤ 4 ∨ y < into.height / 4 * 4 ∧ ((hf.bound x).size - 1) % 8 < 4 →
          sample out.buffer (into.strideOf 4) 4 y x c = some (sep fun _ k => k)) := by
  obtain ⟨vf, hf, out, ev, eh, Tv, Th, o1, o2⟩ := neonH_taps (L := L) ha cpu st o ho h
  refine ⟨vf, hf, out, ev, eh, Tv, Th, o1, fun y x c hy hx hc => ?_⟩
  intro sep
  rw [o2 y x c hy hx hc]
  have hp : pathH cpu st 4 = pathV cpu st := rfl
  rw [hp]
  constructor
  · intro hf16
    refine congrArg some ?_
    unfold sep separable
    dsimp only
    by_cases hw : store.width = into.width
    · rw [if_pos hw, if_pos hw]
    · rw [if_neg hw, if_neg hw]
      refine neonSum_congr o h _ (Th.size_pos x hx) ho (fun k hk' => ?_)
      have hne : pathV cpu st ≠ .portable := by
        unfold pathV
        rw [hf16]
        cases st <;> simp <;> split_ifs <;> simp
      unfold tapUsed
      rw [if_neg hne, if_pos rfl]
  · intro hs
    refine congrArg some ?_
    unfold sep separable
    dsimp only
    by_cases hw : store.width = into.width
    · rw [if_pos hw, if_pos hw]
    · rw [if_neg hw, if_neg hw]
      refine neonSum_congr o h _ (Th.size_pos x hx) ho (fun k hk' => ?_)
      have := pathH_right (cpu := cpu) (st := st) (N := 4) (four := y < into.height / 4 * 4) (n := (hf.bound x).size)
        (Or.inr (Or.inr ⟨rfl, hs⟩)) (c := c) hk'
      rw [hp] at this
      rw [this]

/-- An image that is zero except for pixel `i` of every row, whose samples are all `1.0`. -/
def Demo.spike (N w h i : ℕ) : Image ℕ :=
  { buffer := (List.range (N * w * h)).map fun j => if j / N % w = i then 15360 else 0, channels := N, width := w,
    height := h, stride := N * w, bitDepth := 0 }
def Demo.blank (N w h : ℕ) : Image ℕ :=
  { buffer := List.replicate (N * w * h) 7, channels := N, width := w, height := h, stride := N * w, bitDepth := 0 }

theorem Demo.spikeCall : AcceptedF (2 ^ 64) 4 .bilinear (Demo.spike 4 8 1 3) (Demo.blank 4 2 1) := by
  constructor <;> decide +kernel

/-- Both cases occur: a 6-to-2 resize has windows of 5 pixels, a 6-to-4 resize of at most 4. -/
example : (tableOf demoLib .bilinear 6 2).map (fun f => (f.bound 0).size) = some 5 ∧
    (tableOf demoLib .bilinear 6 4).map (fun f => (f.bound 0).size ≤ 4 ∧ (f.bound 1).size ≤ 4) = some True := by
  constructor
  · decide +kernel
  · have h : (tableOf demoLib .bilinear 6 4).map (fun f => decide ((f.bound 0).size ≤ 4 ∧ (f.bound 1).size ≤ 4)) = some true := by
      decide +kernel
    rcases ht : tableOf demoLib .bilinear 6 4 with _ | f
    · rw [ht] at h; exact absurd h (by decide)
    · rw [ht] at h
      simp only [Option.map_some, Option.some.injEq, decide_eq_true_eq] at h
      simp [h]

example :=
  C236_neon_rgba_value_partial (L := demoLib) Demo.spikeCall Demo.armNew .preferQuality F16.halfBits rfl F16.halfVec

/-- The fourth pixel of an RGBA row is ignored: shrinking a row of eight pixels, black but for pixel 3, to two gives a
black first pixel, on the newest CPU for both workloads; its weight in the table is about 0.18, which the portable code
(no `f16c`) honours. -/
theorem C236_violated :
    (∀ st : Workload, (genericResize (2 ^ 64) 4 (formatF16Neon Demo.armNew st F16.halfBits F16.halfVec 4) demoLib .bilinear
      (Demo.spike 4 8 1 3) (Demo.blank 4 2 1)).map (fun r => r.2.buffer.take 4) = some [0, 0, 0, 0]) ∧
    (tableOf demoLib .bilinear 8 2).map (fun f => ((f.bound 0).start, decide (17 / 100 < f.weight 0 3))) = some (0, true) ∧
    (genericResize (2 ^ 64) 4 (formatF16Neon ⟨false, true, true⟩ .preferQuality F16.halfBits F16.halfVec 4) demoLib .bilinear
      (Demo.spike 4 8 1 3) (Demo.blank 4 2 1)).map (fun r => (r.2.buffer.take 4).map fun v => decide (17 / 100 < F16.dec v)) =
      some [true, true, true, true] := by
  refine ⟨fun st => ?_, by decide +kernel, by decide +kernel⟩
  cases st <;> decide +kernel

/-! ### C237: three channels in halves -/

/-- **C237 (partial).** RGB images whose width changes, speed preferred, on a CPU with `fp16`: the formula of C235
holds for red and green of pixels whose horizontal window has up to four pixels. In general tap `k` meets pixel and
channel `rgbFastUsed` of the window. -/
theorem C237_neon_rgb_fast_partial {W : ℕ} {L : Lib} {r : ResamplingFunction} {store into : Image H}
    (ha : AcceptedF W 3 r store into) (cpu : NeonHalfCpu) (hcpu : cpu.fp16 = true) (o : HalfOps H ℚ)
    (ho : o.arith = ratOps) (h : VecOps H) (hw : store.width ≠ into.width) :
    ∃ vf hf out, tableOf L r store.height into.height = some vf ∧ tableOf L r store.width into.width = some hf ∧
      ValidTable vf store.height into.height ∧ ValidTable hf store.width into.width ∧
      genericResize W 3 (formatF16Neon cpu .preferSpeed o h 3) L r store into = some (.ok (), out) ∧
      ∀ y x c, y < into.height → x < into.width → c < 3 →
        let col := fun x' c' => if store.height = into.height then pxD o.zeroH store.buffer (store.strideOf 3) 3 y x' c'
          else o.neonSum h (pathV cpu .preferSpeed)
            (fun j => pxD o.zeroH store.buffer (store.strideOf 3) 3 ((vf.bound y).start + j) x' c') (fun j => vf.weight y j)
            (vf.bound y).size
        let sum := fun used : ℕ → ℕ × ℕ => o.neonSum h .full (fun k => col ((hf.bound x).start + (used k).1) (used k).2)
          (fun k => hf.weight x k) (hf.bound x).size
        sample out.buffer (into.strideOf 3) 3 y x c = some (sum fun k => rgbFastUsed (hf.bound x).size k c) ∧
        (c < 2 → (hf.bound x).size ≤ 4 → sample out.buffer (into.strideOf 3) 3 y x c = some (sum fun k => (k, c))) := by
  obtain ⟨vf, hf, out, ev, eh, Tv, Th, o1, o2⟩ := neonH_taps (L := L) ha cpu .preferSpeed o ho h
  refine ⟨vf, hf, out, ev, eh, Tv, Th, o1, fun y x c hy hx hc => ?_⟩
  intro col sum
  have hp : pathH cpu .preferSpeed 3 = .full := by
    unfold pathH
    rw [if_neg (by decide), if_pos rfl, hcpu]
    rfl
  have hv := o2 y x c hy hx hc
  dsimp only at hv
  rw [if_neg hw, hp] at hv
  have key : sample out.buffer (into.strideOf 3) 3 y x c = some (sum fun k => rgbFastUsed (hf.bound x).size k c) := by
    rw [hv]
    refine congrArg some ?_
    rfl
  refine ⟨key, fun h2 h4 => ?_⟩
  rw [key]
  refine congrArg some ?_
  unfold sum
  refine neonSum_congr o h _ (Th.size_pos x hx) ho (fun k hk => ?_)
  have : rgbFastUsed (hf.bound x).size k c = (k, c) := by
    unfold rgbFastUsed
    rw [if_neg (by omega), if_neg (by omega)]
  simp only [this]

theorem Demo.rgbCall : AcceptedF (2 ^ 64) 3 .bilinear (Demo.hx 3 6 3) (Demo.hz 3 4 3) := by
  constructor <;> decide +kernel

example :=
  C237_neon_rgb_fast_partial (L := demoLib) Demo.rgbCall Demo.armNew rfl F16.halfBits rfl F16.halfVec (by decide)

/-- A pure red RGB row: `(1, 0, 0)` in every pixel. -/
def Demo.red (w h : ℕ) : Image ℕ :=
  { buffer := (List.range (3 * w * h)).map fun j => if j % 3 = 0 then 15360 else 0, channels := 3, width := w, height := h,
    stride := 3 * w, bitDepth := 0 }

/-- Shrinking a pure red RGB row from eight pixels to two, speed preferred, on a CPU with `fp16`: red loses more than a
tenth of its value, and blue, absent from the source, exceeds one half. When quality is preferred the result is pure
red. -/
theorem C237_violated :
    (genericResize (2 ^ 64) 3 (formatF16Neon Demo.armNew .preferSpeed F16.halfBits F16.halfVec 3) demoLib .bilinear
      (Demo.red 8 1) (Demo.blank 3 2 1)).map (fun r => (r.2.buffer.take 3).map F16.dec) =
      some [841 / 1024, 0, 585 / 1024] ∧
    (genericResize (2 ^ 64) 3 (formatF16Neon Demo.armNew .preferQuality F16.halfBits F16.halfVec 3) demoLib .bilinear
      (Demo.red 8 1) (Demo.blank 3 2 1)).map (fun r => (r.2.buffer.take 3).map F16.dec) = some [1, 0, 0] := by
  constructor <;> decide +kernel

/-! ### C238: locality -/

/-- **C238.** On every AArch64 CPU, for any arithmetic and conversions, a destination sample depends only on the source
samples inside its windows, and only on those of its own channel, except in three-channel images whose width changes
when speed is preferred and the CPU has `fp16`. -/
theorem C238_neon_f16_locality {W N : ℕ} {L : Lib} {r : ResamplingFunction} {store store' into into' : Image H}
    (ha : AcceptedF W N r store into) (ha' : AcceptedF W N r store' into') (cpu : NeonHalfCpu) (st : Workload)
    (o : HalfOps H A) (h : VecOps H)
    (hsz : store'.width = store.width ∧ store'.height = store.height)
    (hdz : into'.width = into.width ∧ into'.height = into.height)
    {y x c : ℕ} (hy : y < into.height) (hx : x < into.width) (hc : c < N)
    (hp : ∀ vf hf j k c', tableOf L r store.height into.height = some vf → tableOf L r store.width into.width = some hf →
      (if store.height = into.height then j = y else (vf.bound y).start ≤ j ∧ j < (vf.bound y).start + (vf.bound y).size) →
      (if store.width = into.width then k = x else (hf.bound x).start ≤ k ∧ k < (hf.bound x).start + (hf.bound x).size) →
      (if N = 3 ∧ st = .preferSpeed ∧ cpu.fp16 = true ∧ store.width ≠ into.width then c' < 3 else c' = c) →
      sample store.buffer (store.strideOf N) N j k c' = sample store'.buffer (store'.strideOf N) N j k c') :
    ∃ out out', genericResize W N (formatF16Neon cpu st o h N) L r store into = some (.ok (), out) ∧
      genericResize W N (formatF16Neon cpu st o h N) L r store' into' = some (.ok (), out') ∧
      sample out.buffer (into.strideOf N) N y x c = sample out'.buffer (into'.strideOf N) N y x c := by
  obtain ⟨vf, hf, out, ev, eh, Tv, Th, o1, _, _, o4⟩ := resize_neonH (L := L) ha cpu st o h
  obtain ⟨vf', hf', out', ev', eh', _, _, o1', _, _, o4'⟩ := resize_neonH (L := L) ha' cpu st o h
  rw [hsz.2, hdz.2, ev] at ev'
  rw [hsz.1, hdz.1, eh] at eh'
  obtain rfl := Option.some.inj ev'
  obtain rfl := Option.some.inj eh'
  refine ⟨out, out', o1, o1', ?_⟩
  rw [o4 y x c hy hx hc, o4' y x c (by omega) (by omega) hc]
  refine congrArg some ?_
  simp only [hsz.1, hsz.2, hdz.1, hdz.2]
  have hcol : ∀ k c', (if store.width = into.width then k = x else (hf.bound x).start ≤ k ∧ k < (hf.bound x).start + (hf.bound x).size) →
      (if N = 3 ∧ st = .preferSpeed ∧ cpu.fp16 = true ∧ store.width ≠ into.width then c' < 3 else c' = c) →
      (if store.height = into.height then rowPos o.zeroH store.buffer (store.strideOf N) y (k * N + c')
        else vvNeonH cpu st o h vf y (k * N + c') (rowPos o.zeroH store.buffer (store.strideOf N))) =
      (if store.height = into.height then rowPos o.zeroH store'.buffer (store'.strideOf N) y (k * N + c')
        else vvNeonH cpu st o h vf y (k * N + c') (rowPos o.zeroH store'.buffer (store'.strideOf N))) := by
    intro k c' hk hc'
    by_cases hh : store.height = into.height
    · rw [if_pos hh, if_pos hh, rowPos_pxD, rowPos_pxD]
      unfold pxD
      rw [hp vf hf y k c' ev eh (by rw [if_pos hh]) hk hc']
    · rw [if_neg hh, if_neg hh]
      refine sumNeonH_congr o h _ fun j hj => ?_
      rw [rowPos_pxD, rowPos_pxD]
      unfold pxD
      rw [hp vf hf _ k c' ev eh (by rw [if_neg hh]; omega) hk hc']
  unfold sepFun
  dsimp only
  by_cases hw : store.width = into.width
  · rw [if_pos hw, if_pos hw]
    exact hcol x c (by rw [if_pos hw]) (by rw [if_neg (by tauto)])
  · rw [if_neg hw, if_neg hw]
    refine sumNeonH_congr o h _ fun k hk => ?_
    have hch := pathH_channels cpu st N
    have hlt := halfTap_lt hch (four := decide (y < into.height / 4 * 4)) hk hc
    rw [halfTap_used hch hc] at hlt ⊢
    rw [← Nat.add_assoc, ← Nat.add_mul]
    refine hcol _ _ ?_ ?_
    · rw [if_neg hw]
      refine ⟨by omega, Nat.add_lt_add_left ?_ _⟩
      by_contra hge
      have := Nat.mul_le_mul_right N (Nat.le_of_not_lt hge)
      omega
    · split_ifs with hcond
      · obtain ⟨rfl, rfl, hfp, _⟩ := hcond
        have hpp : pathH cpu .preferSpeed 3 = .full := by
          unfold pathH
          rw [if_neg (by decide), if_pos rfl, hfp]
          rfl
        rw [hpp]
        unfold tapUsed rgbFastUsed
        rw [if_neg (by decide), if_neg (by decide), if_pos rfl]
        split_ifs <;> simp only [] <;> omega
      · unfold tapUsed
        split_ifs with h1 h4 hfu
        · rfl
        · rfl
        · exfalso
          have hN3 : N = 3 := by tauto
          subst hN3
          unfold pathH at hfu
          rw [if_neg (by decide), if_pos rfl] at hfu
          cases st with
          | preferQuality => simp only at hfu; split_ifs at hfu
          | preferSpeed =>
            simp only at hfu
            split_ifs at hfu with h5 h6
            exact hcond ⟨rfl, rfl, h5, hw⟩
        · rfl

example : ∃ out out', genericResize (2 ^ 64) 4 (formatF16Neon Demo.armNew .preferSpeed F16.halfBits F16.halfVec 4) demoLib .bilinear
      (Demo.hx 4 6 5) (Demo.hz 4 2 3) = some (.ok (), out) ∧
    genericResize (2 ^ 64) 4 (formatF16Neon Demo.armNew .preferSpeed F16.halfBits F16.halfVec 4) demoLib .bilinear (Demo.hx' 4 6 5)
      (Demo.hz 4 2 3) = some (.ok (), out') ∧
    sample out.buffer 10 4 1 1 0 = sample out'.buffer 10 4 1 1 0 := by
  refine C238_neon_f16_locality (L := demoLib) Demo.hcall4 Demo.hcall4' _ _ F16.halfBits _ (by decide) (by decide)
    (by decide) (by decide) (by decide) ?_
  intro vf hf j k c' ev eh hj hk hc'
  obtain ⟨vf', hf', _, ev', eh', Tv, Th, _⟩ := resize_f16 (L := demoLib) Demo.hcall4 ⟨true, true, true, true, false⟩ F16.halfBits
  rw [ev] at ev'
  rw [eh] at eh'
  obtain rfl := Option.some.inj ev'
  obtain rfl := Option.some.inj eh'
  rw [if_neg (by decide)] at hj hk hc'
  subst hc'
  have h1 : j < 5 := by have := Tv.inside 1 (by decide); exact lt_of_lt_of_le hj.2 this
  have h2 : k < 6 := by have := Th.inside 1 (by decide); exact lt_of_lt_of_le hk.2 this
  have key : ∀ j < 5, ∀ k < 6, sample (Demo.hx 4 6 5).buffer ((Demo.hx 4 6 5).strideOf 4) 4 j k 0 =
      sample (Demo.hx' 4 6 5).buffer ((Demo.hx' 4 6 5).strideOf 4) 4 j k 0 := by decide +kernel
  exact key j h1 k h2

/-! ### C239: equal rows stay equal -/

/-- **C239 (partial).** When only the width changes, two equal source rows give equal destination rows — for every
arithmetic, workload and CPU — if the image does not have four channels, or both rows or neither belong to the full
groups of four rows, or the windows have up to eight pixels. -/
theorem C239_neon_f16_rows_partial {W N : ℕ} {L : Lib} {r : ResamplingFunction} {store into : Image H}
    (ha : AcceptedF W N r store into) (cpu : NeonHalfCpu) (st : Workload) (o : HalfOps H A) (h : VecOps H)
    (hh : store.height = into.height) {y y' : ℕ} (hy : y < into.height) (hy' : y' < into.height)
    (heq : ∀ x c, x < store.width → c < N →
      sample store.buffer (store.strideOf N) N y x c = sample store.buffer (store.strideOf N) N y' x c) :
    ∃ hf out, tableOf L r store.width into.width = some hf ∧
      genericResize W N (formatF16Neon cpu st o h N) L r store into = some (.ok (), out) ∧
      ∀ x c, x < into.width → c < N →
        N ≠ 4 ∨ (y < into.height / 4 * 4 ↔ y' < into.height / 4 * 4) ∨ (hf.bound x).size ≤ 8 →
        sample out.buffer (into.strideOf N) N y x c = sample out.buffer (into.strideOf N) N y' x c := by
  obtain ⟨vf, hf, out, _, eh, _, Th, o1, _, _, o4⟩ := resize_neonH (L := L) ha cpu st o h
  refine ⟨hf, out, eh, o1, fun x c hx hc hcond => ?_⟩
  rw [o4 y x c hy hx hc, o4 y' x c hy' hx hc]
  refine congrArg some ?_
  have hne : store.width ≠ into.width := by have := ha.sizes; tauto
  simp only [sepFun, if_neg hne, if_pos hh]
  have hrow : ∀ q, q < store.width * N → rowPos o.zeroH store.buffer (store.strideOf N) y q =
      rowPos o.zeroH store.buffer (store.strideOf N) y' q := by
    intro q hq
    have hN := ha.channels.1
    have hx' : q / N < store.width := Nat.div_lt_of_lt_mul (by rw [Nat.mul_comm]; exact hq)
    have hq' : q / N * N + q % N = q := by rw [Nat.mul_comm]; exact Nat.div_add_mod q N
    rw [← hq', rowPos_pxD, rowPos_pxD]
    unfold pxD
    rw [heq _ _ hx' (Nat.mod_lt _ hN)]
  rw [hvNeonH_congr cpu st o h Th hx hc hrow]
  unfold hvNeonH
  refine sumNeonH_congr o h _ fun k hk => ?_
  refine congrArg (fun t => rowPos o.zeroH store.buffer (store.strideOf N) y' ((hf.bound x).start * N + t)) ?_
  unfold halfTap
  split_ifs with h1 h4
  · rfl
  · rcases hcond with hcond | hcond | hcond
    · exact absurd h4 hcond
    · rw [decide_eq_decide.2 hcond]
    · unfold rgbaTap
      rw [show 8 * (((hf.bound x).size - 1) / 8) = 0 by omega]
      simp only [Nat.zero_le, implies_true, true_and]
  · rfl

theorem Demo.rowsCall : AcceptedF (2 ^ 64) 4 .bilinear (Demo.spike 4 8 5 3) (Demo.blank 4 2 5) := by
  constructor <;> decide +kernel

/-- Rows 0 (in the group of four) and 4 (not): windows of six pixels. -/
example := C239_neon_f16_rows_partial (L := demoLib) Demo.rowsCall Demo.armNew .preferQuality F16.halfBits F16.halfVec rfl
  (y := 0) (y' := 4) (by decide) (by decide) (by
    have : ∀ x < 8, ∀ c < 4, sample (Demo.spike 4 8 5 3).buffer ((Demo.spike 4 8 5 3).strideOf 4) 4 0 x c =
      sample (Demo.spike 4 8 5 3).buffer ((Demo.spike 4 8 5 3).strideOf 4) 4 4 x c := by decide +kernel
    exact fun x c hx hc => this x hx c hc)

/-- Five equal RGBA rows of 24 pixels, black but for pixel 3, shrunk to two: the first destination row is not the
last. -/
theorem C239_violated : (genericResize (2 ^ 64) 4 (formatF16Neon Demo.armNew .preferQuality F16.halfBits F16.halfVec 4) demoLib
    .bilinear (Demo.spike 4 24 5 3) (Demo.blank 4 2 5)).map (fun r => (r.2.buffer.take 1, (r.2.buffer.drop 32).take 1)) =
    some ([11475], [0]) := by
  decide +kernel

/-! ### C240: accuracy -/

theorem F16.weightUsed_near (path : HalfPath) {w : ℚ} (hw : |w| < 65520) :
    |F16.weightUsed path w - w| ≤ (if path = .portable ∨ path = .base then 0 else halfErr |w|) := by
  unfold F16.weightUsed
  split_ifs
  · rw [sub_self, abs_zero]
  · exact (F16.enc_near hw).2.2

/-- **C240.** Accuracy on AArch64, samples finite halves of magnitude up to `M`: a destination sample none of whose
horizontal taps is misplaced (`TapsRight`; always, if the width is kept) is a finite half, within `err` of the exact
separable resize, as long as no sum can reach 65520. The weights are those of the table, rounded to halves where the
path does that (`weightUsed`, within half a unit in the last place by `weightUsed_near`). One pass adds the error
`neonPassErr` of its path — binary32 rounding and one rounding to a half, or one rounding to a half for every tap —
and the second one also carries the error of the first. -/
theorem C240_neon_f16_accuracy {W N : ℕ} {L : Lib} {r : ResamplingFunction} {store into : Image ℕ}
    (ha : AcceptedF W N r store into) (cpu : NeonHalfCpu) (st : Workload)
    (hfin : ∀ v ∈ store.buffer, FiniteHalf v) {M : ℚ} (hM0 : 0 ≤ M) (hM : ∀ v ∈ store.buffer, |F16.dec v| ≤ M) :
    ∃ vf hf out, tableOf L r store.height into.height = some vf ∧ tableOf L r store.width into.width = some hf ∧
      genericResize W N (formatF16Neon cpu st F16.halfBits F16.halfVec N) L r store into = some (.ok (), out) ∧
      ∀ y x c, y < into.height → x < into.width → c < N →
        let wv := fun i k => F16.weightUsed (pathV cpu st) (vf.weight i k)
        let wh := fun i k => F16.weightUsed (pathH cpu st N) (hf.weight i k)
        let Sv := ∑ j ∈ range (vf.bound y).size, |wv y j|
        let Sh := ∑ k ∈ range (hf.bound x).size, |wh x k|
        let exact := separable store.width store.height into.width into.height
          (fun i => (vf.bound i).start) (fun i q => dotSum (vf.bound i).size q (wv i))
          (fun i => (hf.bound i).start) (fun i q => dotSum (hf.bound i).size q (wh i))
          (fun y x => F16.dec (pxD 0 store.buffer (store.strideOf N) N y x c)) y x
        let e₁ := if store.height = into.height then 0 else neonPassErr (pathV cpu st) (vf.bound y).size (Sv * M)
        let B := if store.height = into.height then M else Sv * M
        let err := if store.width = into.width then e₁
          else neonPassErr (pathH cpu st N) (hf.bound x).size (Sh * (B + e₁)) + Sh * e₁
        (store.width = into.width ∨ TapsRight cpu st N (hf.bound x).size (y < into.height / 4 * 4)) →
        (store.height ≠ into.height → Sv * M + e₁ < 65520) →
        (store.width ≠ into.width → Sh * (B + e₁) + err < 65520) →
        ∃ v, sample out.buffer (into.strideOf N) N y x c = some v ∧ FiniteHalf v ∧ |F16.dec v - exact| ≤ err := by
  obtain ⟨vf, hf, out, ev, eh, Tv, Th, o1, o2⟩ := neonH_taps (L := L) ha cpu st F16.halfBits rfl F16.halfVec
  refine ⟨vf, hf, out, ev, eh, o1, fun y x c hy hx hc => ?_⟩
  intro wv wh Sv Sh exact e₁ B err htaps hl1 hl2
  have hv := o2 y x c hy hx hc
  dsimp only at hv
  have hz : F16.halfBits.zeroH = 0 := rfl
  rw [hz] at hv
  have hpx : ∀ y x c, FiniteHalf (pxD 0 store.buffer (store.strideOf N) N y x c) ∧
      |F16.dec (pxD 0 store.buffer (store.strideOf N) N y x c)| ≤ M := fun y x c =>
    ⟨pxD_finite hfin _ _ _ _ _, pxD_all (P := fun v => |F16.dec v| ≤ M) hM (by rw [dec_zero, abs_zero]; exact hM0) _ _ _ _ _⟩
  -- columns
  set col : ℕ → ℕ := fun x' => if store.height = into.height then pxD 0 store.buffer (store.strideOf N) N y x' c
    else F16.halfBits.neonSum F16.halfVec (pathV cpu st)
      (fun j => pxD 0 store.buffer (store.strideOf N) N ((vf.bound y).start + j) x' c) (fun j => vf.weight y j)
      (vf.bound y).size with hcol
  set ecol : ℕ → ℚ := fun x' => if store.height = into.height then F16.dec (pxD 0 store.buffer (store.strideOf N) N y x' c)
    else dotSum (vf.bound y).size (fun j => F16.dec (pxD 0 store.buffer (store.strideOf N) N ((vf.bound y).start + j) x' c))
      (wv y) with hecol
  have key : ∀ x', FiniteHalf (col x') ∧ |F16.dec (col x') - ecol x'| ≤ e₁ ∧ |ecol x'| ≤ B := by
    intro x'
    by_cases hh : store.height = into.height
    · simp only [col, ecol, e₁, B, if_pos hh, sub_self, abs_zero]
      exact ⟨(hpx _ _ _).1, le_rfl, (hpx _ _ _).2⟩
    · have hl := hl1 hh
      simp only [col, ecol, e₁, B, if_neg hh] at hl ⊢
      obtain ⟨r1, r2⟩ := neonPass_err (pathV cpu st) (Tv.size_pos y hy)
        (p := fun j => pxD 0 store.buffer (store.strideOf N) N ((vf.bound y).start + j) x' c) (w := fun j => vf.weight y j)
        (B := M) (fun k _ => (hpx _ _ _).1) (fun k _ => (hpx _ _ _).2) hl
      exact ⟨r1, r2, (dotSum_le (fun k _ => (hpx _ _ _).2)).1⟩
  have hex : exact = if store.width = into.width then ecol x
      else dotSum (hf.bound x).size (fun k => ecol ((hf.bound x).start + k)) (wh x) := rfl
  by_cases hw : store.width = into.width
  · rw [if_pos hw] at hv
    simp only [err, if_pos hw]
    rw [hex, if_pos hw]
    exact ⟨_, hv, (key x).1, (key x).2.1⟩
  · rw [if_neg hw] at hv
    have hl := hl2 hw
    simp only [err, if_neg hw] at hl ⊢
    rw [hex, if_neg hw]
    have he0 : 0 ≤ e₁ := le_trans (abs_nonneg _) (key 0).2.1
    have hS0 : 0 ≤ Sh := sum_nonneg fun k _ => abs_nonneg _
    obtain ⟨r1, r2⟩ := neonPass_err2 (pathH cpu st N) (Th.size_pos x hx) (p := fun k => col ((hf.bound x).start + k))
      (w := fun k => hf.weight x k) (V := fun k => ecol ((hf.bound x).start + k)) (B := B) (e := e₁)
      (fun k _ => (key _).1) (fun k _ => (key _).2.2) (fun k _ => (key _).2.1)
      (by have := mul_nonneg hS0 he0; simp only [Sh, wh] at hl this ⊢; linarith)
    refine ⟨_, hv, ?_⟩
    have hsum : F16.halfBits.neonSum F16.halfVec (pathH cpu st N) (fun k =>
          (fun x' c' => if store.height = into.height then pxD 0 store.buffer (store.strideOf N) N y x' c'
            else F16.halfBits.neonSum F16.halfVec (pathV cpu st)
              (fun j => pxD 0 store.buffer (store.strideOf N) N ((vf.bound y).start + j) x' c') (fun j => vf.weight y j)
              (vf.bound y).size)
          ((hf.bound x).start + (tapUsed (pathH cpu st N) N (decide (y < into.height / 4 * 4)) (hf.bound x).size k c).1)
          (tapUsed (pathH cpu st N) N (decide (y < into.height / 4 * 4)) (hf.bound x).size k c).2)
        (fun k => hf.weight x k) (hf.bound x).size =
        F16.halfBits.neonSum F16.halfVec (pathH cpu st N) (fun k => col ((hf.bound x).start + k))
          (fun k => hf.weight x k) (hf.bound x).size := by
      refine neonSum_congr F16.halfBits F16.halfVec _ (Th.size_pos x hx) rfl fun k hk => ?_
      have := pathH_right (htaps.resolve_left hw) (c := c) hk
      rw [this]
    rw [hsum]
    exact ⟨r1, r2⟩

theorem Demo.hx3_ok : (∀ v ∈ (Demo.hx 3 6 3).buffer, FiniteHalf v) ∧ ∀ v ∈ (Demo.hx 3 6 3).buffer, |F16.dec v| ≤ 3 := by
  unfold FiniteHalf
  decide +kernel
theorem Demo.hx1_ok : (∀ v ∈ (Demo.hx 1 2 5).buffer, FiniteHalf v) ∧ ∀ v ∈ (Demo.hx 1 2 5).buffer, |F16.dec v| ≤ 3 := by
  unfold FiniteHalf
  decide +kernel

/-- The conditions of `C240_neon_f16_accuracy` at pixel 1 of an RGB row, `fhm`. -/
def Demo.ncond : Bool :=
  match tableOf demoLib .bilinear 6 2 with
  | some hf =>
    let Sh := ∑ k ∈ range (hf.bound 1).size, |F16.weightUsed .fhm (hf.weight 1 k)|
    decide (Sh * (3 + 0) + (neonPassErr .fhm (hf.bound 1).size (Sh * (3 + 0)) + Sh * 0) < 65520 ∧
      neonPassErr .fhm (hf.bound 1).size (Sh * (3 + 0)) + Sh * 0 < 1 / 500)
  | none => false
theorem Demo.ncond_ok : Demo.ncond = true := by decide +kernel

/-- The conditions at row 1 of a grey column, in halves. -/
def Demo.ncondV : Bool :=
  match tableOf demoLib .bilinear 5 3 with
  | some vf =>
    let Sv := ∑ k ∈ range (vf.bound 1).size, |F16.weightUsed .full (vf.weight 1 k)|
    decide (Sv * 3 + neonPassErr .full (vf.bound 1).size (Sv * 3) < 65520 ∧
      neonPassErr .full (vf.bound 1).size (Sv * 3) < 1 / 100)
  | none => false
theorem Demo.ncondV_ok : Demo.ncondV = true := by decide +kernel

/-- An RGB sample with half weights is within 1/500 of the exact sum of those weights. -/
example : ∃ hf out, tableOf demoLib .bilinear 6 2 = some hf ∧
    genericResize (2 ^ 64) 3 (formatF16Neon Demo.armNew .preferQuality F16.halfBits F16.halfVec 3) demoLib .bilinear
      (Demo.hx 3 6 3) (Demo.hz 3 2 3) = some (.ok (), out) ∧
    ∃ v, sample out.buffer 8 3 1 1 2 = some v ∧ |F16.dec v - dotSum (hf.bound 1).size
      (fun k => F16.dec (pxD 0 (Demo.hx 3 6 3).buffer 19 3 1 ((hf.bound 1).start + k) 2))
      (fun k => F16.weightUsed .fhm (hf.weight 1 k))| < 1 / 500 := by
  obtain ⟨vf, hf, out, _, eh, o1, o2⟩ := C240_neon_f16_accuracy (L := demoLib) Demo.hcallH Demo.armNew .preferQuality
    Demo.hx3_ok.1 (M := 3) (by norm_num) Demo.hx3_ok.2
  have eh' : tableOf demoLib .bilinear 6 2 = some hf := eh
  have hc := Demo.ncond_ok
  unfold Demo.ncond at hc
  rw [eh'] at hc
  have hc := of_decide_eq_true hc
  refine ⟨hf, out, eh', o1, ?_⟩
  have hw : (Demo.hx 3 6 3).width ≠ (Demo.hz 3 2 3).width := by decide
  have hh : (Demo.hx 3 6 3).height = (Demo.hz 3 2 3).height := rfl
  have hp : pathH Demo.armNew .preferQuality 3 = .fhm := rfl
  have hs : (Demo.hx 3 6 3).strideOf 3 = 19 := rfl
  have hs' : (Demo.hz 3 2 3).strideOf 3 = 8 := rfl
  have key := o2 1 1 2 (by decide) (by decide) (by decide)
  simp only [separable, if_neg hw, if_pos hh, hp, hs, hs'] at key
  obtain ⟨v, v1, _, v3⟩ := key (Or.inr (Or.inr (Or.inl ⟨rfl, by decide⟩))) (fun h => absurd hh h) (fun _ => hc.1)
  exact ⟨v, v1, lt_of_le_of_lt v3 hc.2⟩

/-- A grey sample summed in halves is within 1/100. -/
example : ∃ vf out, tableOf demoLib .bilinear 5 3 = some vf ∧
    genericResize (2 ^ 64) 1 (formatF16Neon Demo.armNew .preferSpeed F16.halfBits F16.halfVec 1) demoLib .bilinear
      (Demo.hx 1 2 5) (Demo.hz 1 2 3) = some (.ok (), out) ∧
    ∃ v, sample out.buffer 4 1 1 1 0 = some v ∧ |F16.dec v - dotSum (vf.bound 1).size
      (fun k => F16.dec (pxD 0 (Demo.hx 1 2 5).buffer 3 1 ((vf.bound 1).start + k) 1 0))
      (fun k => F16.weightUsed .full (vf.weight 1 k))| < 1 / 100 := by
  obtain ⟨vf, hf, out, ev, _, o1, o2⟩ := C240_neon_f16_accuracy (L := demoLib) Demo.hcallV Demo.armNew .preferSpeed
    Demo.hx1_ok.1 (M := 3) (by norm_num) Demo.hx1_ok.2
  have ev' : tableOf demoLib .bilinear 5 3 = some vf := ev
  have hc := Demo.ncondV_ok
  unfold Demo.ncondV at hc
  rw [ev'] at hc
  have hc := of_decide_eq_true hc
  refine ⟨vf, out, ev', o1, ?_⟩
  have hh : (Demo.hx 1 2 5).height ≠ (Demo.hz 1 2 3).height := by decide
  have hw : (Demo.hx 1 2 5).width = (Demo.hz 1 2 3).width := rfl
  have hp : pathV Demo.armNew .preferSpeed = .full := rfl
  have hs : (Demo.hx 1 2 5).strideOf 1 = 3 := rfl
  have hs' : (Demo.hz 1 2 3).strideOf 1 = 4 := rfl
  have key := o2 1 1 0 (by decide) (by decide) (by decide)
  simp only [separable, if_neg hh, if_pos hw, hp, hs, hs'] at key
  obtain ⟨v, v1, _, v3⟩ := key (Or.inl hw) (fun _ => hc.1) (fun h => absurd hw h)
  exact ⟨v, v1, lt_of_le_of_lt v3 hc.2⟩

end PicScale
