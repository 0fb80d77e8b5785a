import Verif.Props.NeonAlphaF16
import Verif.Props.AlphaF16Resize
import Verif.Props.NeonF16

/-!
Property theorems about RGBA f16 resizes with `premultiply_alpha = true` on aarch64: C245–C247.
-/

namespace PicScale

open Spec F16

/-- RGBA f16 on an aarch64 CPU. -/
abbrev neonF16 (cpu : NeonHalfCpu) (st : Workload) : Format ℕ := formatF16Neon cpu st halfBits halfVec 4

/-- The first step: the premultiplied copy. -/
theorem premultiplied_neon_f16 {W : ℕ} {r : ResamplingFunction} {store into : Image ℕ} (h : AcceptedF W 4 r store into)
    (hch : store.channels = 4) (cpu : NeonHalfCpu) (st : Workload) :
    ∃ work, premultiplied W 4 (neonF16 cpu st) (alphaNeonF16 cpu.fp16 halfBits) true store into = some work ∧
      work.width = store.width ∧ work.height = store.height ∧ AcceptedF W 4 r work into ∧
      ((∀ v ∈ store.buffer, FiniteHalf v) →
        (cpu.fp16 = true ∨ ∀ y x, pxD 0 store.buffer (store.strideOf 4) 4 y x 3 ≠ 0x8000) → PremultipliedH store work) := by
  obtain ⟨c1, c2, c3, c4, _⟩ := checkResize_ok.1 h.checked
  rw [hch] at c4
  have hfit := fits_of_overflow c4
  unfold premultiplied
  rw [if_pos ⟨rfl, rfl⟩, tempImage_some hfit]
  simp only [Option.bind_eq_bind, Option.bind_some]
  set dst : Image ℕ := ⟨List.replicate (store.width * store.height * 4) (neonF16 cpu st).default, 4,
      store.width, store.height, store.width * 4, into.bitDepth⟩ with hdst
  have hdv : dst.validate 4 = .ok () := packed_validate (by rw [List.length_replicate])
  obtain ⟨t, t1, t2, _, _⟩ := premultiplyN_spec cpu.fp16 (src := store) (dst := dst) c2 hdv rfl rfl c3.1
  rw [t1]
  simp only [Option.bind_some]
  obtain ⟨_, _, _, _, _, tl⟩ := t2
  have tl' : t.buffer.length = store.width * store.height * 4 := by rw [tl, hdst]; simp only [List.length_replicate]
  refine ⟨_, rfl, rfl, rfl, ⟨h.channels, check_packed h.checked hch tl', h.filter, h.sizes, h.small, h.area, h.fits⟩, ?_⟩
  intro hfin hz
  have hs : dst.strideOf 4 = store.width * 4 := by rw [hdst, packed_strideOf]
  obtain ⟨t', e1, _, _, e4⟩ := C241_premultiply_neon_f16 cpu.fp16 (src := store) (dst := dst) c2 hdv rfl rfl c3.1 hfin
  rw [t1] at e1
  obtain rfl := Option.some.inj e1
  rw [hs] at e4
  refine ⟨rfl, rfl, fun y x hy hx => ?_⟩
  simp only [packed_strideOf]
  refine ⟨fun c hc => ?_, ?_⟩
  · obtain ⟨v, v1, v2⟩ := (e4 y x hy hx).1 c hc
    have : pxD 0 t.buffer (store.width * 4) 4 y x c = v := by unfold pxD; rw [v1]; rfl
    rw [this]
    exact v2
  · rw [(e4 y x hy hx).2 (hz.imp_right fun hz => hz y x), sample_some 0 c2 hy hx (by omega)]

/-! ### C245: the whole call -/

/-- **C245.** RGBA f16 with `premultiply_alpha = true` on every aarch64 CPU, with either workload and for any samples: the
call returns `Ok` and no access leaves a buffer. It is premultiplication into a packed copy, the plain resize of that
copy, and unpremultiplication of the result: alpha and everything outside the pixels is as the plain resize left it. For
finite samples (without half arithmetic: no alpha a minus zero) the copy has every colour times alpha, rounded once, and
the alphas of the source. -/
theorem C245_alpha_pipeline_neon_f16 {W : ℕ} {L : Lib} {r : ResamplingFunction} {store into : Image ℕ}
    (h : AcceptedF W 4 r store into) (hch : store.channels = 4) (cpu : NeonHalfCpu) (st : Workload) :
    ∃ work mid out,
      genericResize W 4 (neonF16 cpu st) L r work into = some (.ok (), mid) ∧
      (alphaNeonF16 cpu.fp16 halfBits).unpremultiply mid = some out ∧
      genericResizeWithAlpha W 4 (neonF16 cpu st) (alphaNeonF16 cpu.fp16 halfBits) L r store into true = some (.ok (), out) ∧
      SameShape out into ∧
      (∀ p, ¬ IsPixelPos (into.strideOf 4) 4 into.width into.height p → out.buffer[p]? = mid.buffer[p]?) ∧
      (∀ y x, y < into.height → x < into.width →
        sample out.buffer (into.strideOf 4) 4 y x 3 = sample mid.buffer (into.strideOf 4) 4 y x 3) ∧
      ((∀ v ∈ store.buffer, FiniteHalf v) →
        (cpu.fp16 = true ∨ ∀ y x, pxD 0 store.buffer (store.strideOf 4) 4 y x 3 ≠ 0x8000) → PremultipliedH store work) := by
  obtain ⟨work, w1, w2, w3, w4, w5⟩ := premultiplied_neon_f16 h hch cpu st
  obtain ⟨mid, m1, m2⟩ := C233_neon_f16_no_oob (L := L) w4 cpu st halfBits halfVec
  obtain ⟨c1, c2, c3, _⟩ := checkResize_ok.1 h.checked
  have hst : mid.strideOf 4 = into.strideOf 4 := sameShape_strideOf m2
  have hmw : mid.width = into.width := m2.1
  have hmh : mid.height = into.height := m2.2.1
  have hv := sameShape_validate m2 c1
  obtain ⟨out, o1, o2, o3, o4⟩ := C242_unpremultiply_neon_f16_frame cpu.fp16 (img := mid) hv (by rw [hmw]; exact c3.2.2.1)
  rw [hst, hmw, hmh] at o4
  refine ⟨work, mid, out, m1, o1, withAlpha_compose h.checked h.filter h.sizes w1 w2 w3 m1 o1, ?_, ?_, ?_, w5⟩
  · obtain ⟨a1, a2, a3, a4, a5, a6⟩ := o2
    obtain ⟨b1, b2, b3, b4, b5, b6⟩ := m2
    exact ⟨a1.trans b1, a2.trans b2, a3.trans b3, a4.trans b4, a5.trans b5, a6.trans b6⟩
  · intro p hp
    apply o3
    rw [hst, hmw, hmh]
    exact hp
  · intro y x hy hx
    have := sample_some (N := 4) 0 hv (y := y) (x := x) (c := 3) (by rw [hmh]; exact hy) (by rw [hmw]; exact hx) (by omega)
    rw [hst] at this
    rw [this, o4 y x hy hx]

example (st : Workload) : ∃ work mid out, PremultipliedH Demo.ah work ∧
    genericResize (2 ^ 64) 4 (neonF16 Demo.armNew st) demoLib .bilinear work Demo.ahz = some (.ok (), mid) ∧
    genericResizeWithAlpha (2 ^ 64) 4 (neonF16 Demo.armNew st) (alphaNeonF16 Demo.armNew.fp16 halfBits) demoLib .bilinear
      Demo.ah Demo.ahz true = some (.ok (), out) := by
  obtain ⟨work, mid, out, h1, _, h3, _, _, _, h4⟩ := C245_alpha_pipeline_neon_f16 (L := demoLib) Demo.ahcall rfl Demo.armNew st
  exact ⟨work, mid, out, h4 Demo.ah_finite (Or.inr Demo.ah_alpha), h1, h3⟩

/-! ### C246: the alpha channel -/

/-- **C246.** On every aarch64 CPU and with either workload, the alpha channel of a resized RGBA f16 image of finite samples
does not depend on `premultiply_alpha`: both calls succeed and store the same alpha in every pixel (without half
arithmetic: no alpha of the source a minus zero). -/
theorem C246_alpha_same_neon_f16 {W : ℕ} {L : Lib} {r : ResamplingFunction} {store into : Image ℕ}
    (h : AcceptedF W 4 r store into) (hch : store.channels = 4) (cpu : NeonHalfCpu) (st : Workload)
    (hfin : ∀ v ∈ store.buffer, FiniteHalf v)
    (hz : cpu.fp16 = true ∨ ∀ y x, pxD 0 store.buffer (store.strideOf 4) 4 y x 3 ≠ 0x8000) :
    ∃ out out',
      genericResizeWithAlpha W 4 (neonF16 cpu st) (alphaNeonF16 cpu.fp16 halfBits) L r store into true = some (.ok (), out) ∧
      genericResizeWithAlpha W 4 (neonF16 cpu st) (alphaNeonF16 cpu.fp16 halfBits) L r store into false = some (.ok (), out') ∧
      ∀ y x, y < into.height → x < into.width →
        sample out.buffer (into.strideOf 4) 4 y x 3 = sample out'.buffer (into.strideOf 4) 4 y x 3 := by
  obtain ⟨work, w1, w2, w3, w4, w5⟩ := premultiplied_neon_f16 h hch cpu st
  obtain ⟨_, _, w6⟩ := w5 hfin hz
  obtain ⟨vf, hf, mid, ev, eh, Tv, Th, m1, m2, _⟩ := resize_neonH (L := L) w4 cpu st halfBits halfVec
  obtain ⟨out', p1, p2⟩ := C233_neon_f16_no_oob (L := L) h cpu st halfBits halfVec
  obtain ⟨c1, c2, c3, _⟩ := checkResize_ok.1 h.checked
  have hst : mid.strideOf 4 = into.strideOf 4 := sameShape_strideOf m2
  have hmw : mid.width = into.width := m2.1
  have hmh : mid.height = into.height := m2.2.1
  have hv := sameShape_validate m2 c1
  obtain ⟨out, o1, _, _, o4⟩ := C242_unpremultiply_neon_f16_frame cpu.fp16 (img := mid) hv (by rw [hmw]; exact c3.2.2.1)
  rw [hst, hmw, hmh] at o4
  refine ⟨out, out', withAlpha_compose h.checked h.filter h.sizes w1 w2 w3 m1 o1, withAlpha_false.trans p1, ?_⟩
  intro y x hy hx
  obtain ⟨mid', out'', q1, q2, q3⟩ := C238_neon_f16_locality (L := L) w4 h cpu st halfBits halfVec ⟨w2.symm, w3.symm⟩ ⟨rfl, rfl⟩
    (y := y) (x := x) (c := 3) hy hx (by omega) (by
      intro vf' hf' j k c' ev' eh' hj hk hc'
      rw [ev] at ev'
      rw [eh] at eh'
      obtain rfl := Option.some.inj ev'
      obtain rfl := Option.some.inj eh'
      rw [if_neg (by omega)] at hc'
      subst hc'
      refine (w6 j k ?_ ?_).2
      · rw [← w3]
        split_ifs at hj with q
        · omega
        · have := Tv.inside y hy; omega
      · rw [← w2]
        split_ifs at hk with q
        · omega
        · have := Th.inside x hx; omega)
  rw [m1] at q1
  rw [p1] at q2
  simp only [Option.some.injEq, Prod.mk.injEq, true_and] at q1 q2
  subst q1
  subst q2
  rw [← q3, o4 y x hy hx]
  have := sample_some (N := 4) 0 hv (y := y) (x := x) (c := 3) (by rw [hmh]; exact hy) (by rw [hmw]; exact hx) (by omega)
  rw [hst] at this
  rw [this]

example (st : Workload) : ∃ out out',
    genericResizeWithAlpha (2 ^ 64) 4 (neonF16 Demo.armOld st) (alphaNeonF16 Demo.armOld.fp16 halfBits) demoLib .bilinear
      Demo.ah Demo.ahz true = some (.ok (), out) ∧
    genericResizeWithAlpha (2 ^ 64) 4 (neonF16 Demo.armOld st) (alphaNeonF16 Demo.armOld.fp16 halfBits) demoLib .bilinear
      Demo.ah Demo.ahz false = some (.ok (), out') ∧
    sample out.buffer 70 4 0 16 3 = sample out'.buffer 70 4 0 16 3 := by
  obtain ⟨out, out', h1, h2, h3⟩ := C246_alpha_same_neon_f16 (L := demoLib) Demo.ahcall rfl Demo.armOld st
    Demo.ah_finite (Or.inr Demo.ah_alpha)
  exact ⟨out, out', h1, h2, h3 0 16 (by decide) (by decide)⟩

/-! ### C247: the colours -/

/-- **C247 (partial).** With `premultiply_alpha = true` on aarch64, every colour of the result should be the resized
premultiplied colour divided by the resized alpha, to within rounding, and 0 where that alpha is 0. Proved: the quotient for
every pixel whose resized samples are finite, alpha not 0 and quotient at most 65500 (with half arithmetic it is the
half nearest to the quotient); the zeros without half arithmetic. Missing: with half arithmetic pixels of alpha 0
keep the resized premultiplied colour (`C247_violated`). -/
theorem C247_colours_neon_f16_partial {W : ℕ} {L : Lib} {r : ResamplingFunction} {store into : Image ℕ}
    (h : AcceptedF W 4 r store into) (hch : store.channels = 4) (cpu : NeonHalfCpu) (st : Workload)
    (hfin : ∀ v ∈ store.buffer, FiniteHalf v)
    (hz : cpu.fp16 = true ∨ ∀ y x, pxD 0 store.buffer (store.strideOf 4) 4 y x 3 ≠ 0x8000) :
    ∃ work mid out, PremultipliedH store work ∧
      genericResize W 4 (neonF16 cpu st) L r work into = some (.ok (), mid) ∧
      genericResizeWithAlpha W 4 (neonF16 cpu st) (alphaNeonF16 cpu.fp16 halfBits) L r store into true = some (.ok (), out) ∧
      ∀ y x, y < into.height → x < into.width → ∃ a, sample mid.buffer (into.strideOf 4) 4 y x 3 = some a ∧
        ∀ c, c < 3 → ∃ p v, sample mid.buffer (into.strideOf 4) 4 y x c = some p ∧
          sample out.buffer (into.strideOf 4) 4 y x c = some v ∧
          (a = 0 → v = if cpu.fp16 then p else 0) ∧
          (FiniteHalf p → FiniteHalf a → dec a ≠ 0 → |dec p / dec a| ≤ 65500 →
            FiniteHalf v ∧ |dec v - dec p / dec a| ≤ |dec p / dec a| / 2000 + 1 / 2 ^ 24) ∧
          (cpu.fp16 = true → FiniteHalf p → FiniteHalf a → dec a ≠ 0 → RoundsTo (dec p / dec a) v) := by
  obtain ⟨work, w1, w2, w3, w4, w5⟩ := premultiplied_neon_f16 h hch cpu st
  obtain ⟨mid, m1, m2⟩ := C233_neon_f16_no_oob (L := L) w4 cpu st halfBits halfVec
  obtain ⟨c1, c2, c3, _⟩ := checkResize_ok.1 h.checked
  have hst : mid.strideOf 4 = into.strideOf 4 := sameShape_strideOf m2
  have hmw : mid.width = into.width := m2.1
  have hmh : mid.height = into.height := m2.2.1
  have hv := sameShape_validate m2 c1
  obtain ⟨out, o1, o2, o3, o4⟩ := unpremultiplyN_spec cpu.fp16 (img := mid) hv (by rw [hmw]; exact c3.2.2.1)
  rw [hst, hmw, hmh] at o4
  refine ⟨work, mid, out, w5 hfin hz, m1,
    withAlpha_compose h.checked h.filter h.sizes w1 w2 w3 m1 o1, fun y x hy hx => ?_⟩
  have hsamp : ∀ c, c < 4 → sample mid.buffer (into.strideOf 4) 4 y x c = some (pxD 0 mid.buffer (into.strideOf 4) 4 y x c) := by
    intro c hc
    have := sample_some (N := 4) 0 hv (by rw [hmh]; exact hy) (by rw [hmw]; exact hx) hc
    rw [hst] at this
    exact this
  refine ⟨_, hsamp 3 (by omega), fun c hc => ?_⟩
  have ho := o4 y x c hy hx (by omega)
  rw [pixelVal, if_pos hc] at ho
  refine ⟨_, _, hsamp c (by omega), ho, ?_, ?_, ?_⟩
  · intro h0
    exact (unpremulColN_val cpu.fp16 _ _ (a := pxD 0 mid.buffer (into.strideOf 4) 4 y x 3) (by rw [h0]; exact ⟨by decide, by decide⟩)).1 h0
  · intro _ ha h0 hq
    exact (unpremulColN_val cpu.fp16 _ _ ha).2.1 h0 hq
  · intro hf _ ha h0
    exact (unpremulColN_val cpu.fp16 _ _ ha).2.2 hf h0

namespace Demo
/-- 4 × 1 pixels, colour 1: two opaque, then two transparent. -/
def fade : Image ℕ :=
  { buffer := (List.replicate 2 [0x3C00, 0x3C00, 0x3C00, 0x3C00]).flatten ++ (List.replicate 2 [0x3C00, 0x3C00, 0x3C00, 0]).flatten,
    channels := 4, width := 4, height := 1, stride := 16, bitDepth := 0 }
theorem fadecall : AcceptedF (2 ^ 64) 4 .bilinear fade (blank 4 2 1) := by constructor <;> decide +kernel
theorem fade_finite : ∀ v ∈ fade.buffer, FiniteHalf v := by
  unfold FiniteHalf
  decide +kernel
end Demo

example (st : Workload) : ∃ work mid out, PremultipliedH Demo.fade work ∧
    genericResize (2 ^ 64) 4 (neonF16 Demo.armNew st) demoLib .bilinear work (Demo.blank 4 2 1) = some (.ok (), mid) ∧
    genericResizeWithAlpha (2 ^ 64) 4 (neonF16 Demo.armNew st) (alphaNeonF16 Demo.armNew.fp16 halfBits) demoLib .bilinear
      Demo.fade (Demo.blank 4 2 1) true = some (.ok (), out) := by
  obtain ⟨work, mid, out, h1, h2, h3, _⟩ := C247_colours_neon_f16_partial (L := demoLib) Demo.fadecall rfl Demo.armNew st
    Demo.fade_finite (Or.inl rfl)
  exact ⟨work, mid, out, h1, h2, h3⟩

namespace Demo
/-- 8 × 1 pixels: the first has colour 16 and the smallest positive alpha, the others are 0. -/
def faint : Image ℕ :=
  { buffer := [0x4C00, 0x4C00, 0x4C00, 1] ++ List.replicate 28 0, channels := 4, width := 8, height := 1, stride := 32,
    bitDepth := 0 }
end Demo

/-- **C247 fails on CPUs with half arithmetic**: where the resized alpha rounds to 0, the premultiplied colour is stored
(3, the pattern of `3 · 2^-24`), neither 0 nor a quotient. Without half arithmetic the colour is 0. -/
theorem C247_violated :
    (genericResizeWithAlpha (2 ^ 64) 4 (neonF16 Demo.armNew .preferQuality) (alphaNeonF16 Demo.armNew.fp16 halfBits) demoLib
      .bilinear Demo.faint (Demo.blank 4 2 1) true).map (fun r => r.2.buffer.take 4) = some [3, 3, 3, 0] ∧
    (genericResizeWithAlpha (2 ^ 64) 4 (neonF16 Demo.armOld .preferQuality) (alphaNeonF16 Demo.armOld.fp16 halfBits) demoLib
      .bilinear Demo.faint (Demo.blank 4 2 1) true).map (fun r => r.2.buffer.take 4) = some [0, 0, 0, 0] := by
  constructor <;> decide +kernel

end PicScale
