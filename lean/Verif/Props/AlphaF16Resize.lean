import Verif.Props.AlphaF16
import Verif.Props.AlphaF32Resize
import Verif.Props.F16

/-!
Property theorems about RGBA f16 resizes with `premultiply_alpha = true`: C132–C134.
-/

namespace PicScale

open Spec F16

namespace Spec

/-- `work` is the premultiplied copy of `src`: every colour is the half for the product with alpha, every alpha is
kept. -/
def PremultipliedH (src work : Image ℕ) : Prop :=
  work.width = src.width ∧ work.height = src.height ∧
    ∀ y x, y < src.height → x < src.width →
      (∀ c, c < 3 → RoundsTo
        (dec (pxD 0 src.buffer (src.strideOf 4) 4 y x c) * dec (pxD 0 src.buffer (src.strideOf 4) 4 y x 3))
        (pxD 0 work.buffer (work.strideOf 4) 4 y x c)) ∧
      sample work.buffer (work.strideOf 4) 4 y x 3 = sample src.buffer (src.strideOf 4) 4 y x 3

end Spec

/-- The first step: the premultiplied copy. -/
theorem premultiplied_f16 {W : ℕ} {r : ResamplingFunction} {store into : Image ℕ} (h : AcceptedF W 4 r store into)
    (hch : store.channels = 4) (cpu : HalfCpu) :
    ∃ work, premultiplied W 4 (formatF16 cpu halfBits 4) (alphaF16 cpu halfBits) true store into = some work ∧
      work.width = store.width ∧ work.height = store.height ∧ AcceptedF W 4 r work into ∧
      ((∀ v ∈ store.buffer, FiniteHalf v) → (∀ y x, pxD 0 store.buffer (store.strideOf 4) 4 y x 3 ≠ 0x8000) →
        (vIeee cpu = true → PremultipliedH store work) ∧
        ∀ y x, y < store.height → x < store.width →
          sample work.buffer (work.strideOf 4) 4 y x 3 = sample store.buffer (store.strideOf 4) 4 y x 3) := by
  obtain ⟨c1, c2, c3, c4, _⟩ := checkResize_ok.1 h.checked
  rw [hch] at c4
  have hfit := fits_of_overflow c4
  unfold premultiplied
  rw [if_pos ⟨rfl, rfl⟩, tempImage_some hfit]
  simp only [Option.bind_eq_bind, Option.bind_some]
  set dst : Image ℕ := ⟨List.replicate (store.width * store.height * 4) (formatF16 cpu halfBits 4).default, 4,
      store.width, store.height, store.width * 4, into.bitDepth⟩ with hdst
  have hdv : dst.validate 4 = .ok () := packed_validate (by rw [List.length_replicate])
  obtain ⟨t, t1, t2, _, _⟩ := premultiplyH_spec cpu halfBits (src := store) (dst := dst) c2 hdv rfl rfl c3.1
  rw [t1]
  simp only [Option.bind_some]
  obtain ⟨_, _, _, _, _, tl⟩ := t2
  have tl' : t.buffer.length = store.width * store.height * 4 := by rw [tl, hdst]; simp only [List.length_replicate]
  refine ⟨_, rfl, rfl, rfl, ⟨h.channels, check_packed h.checked hch tl', h.filter, h.sizes, h.small, h.area, h.fits⟩, ?_⟩
  intro hfin hz
  have hs : dst.strideOf 4 = store.width * 4 := by rw [hdst, packed_strideOf]
  obtain ⟨t', e1, _, _, e4⟩ := C129_premultiply_sse_partial cpu (src := store) (dst := dst) c2 hdv rfl rfl c3.1 hfin
  rw [t1] at e1
  obtain rfl := Option.some.inj e1
  rw [hs] at e4
  have ha : ∀ y x, y < store.height → x < store.width → sample t.buffer (store.width * 4) 4 y x 3 =
      sample store.buffer (store.strideOf 4) 4 y x 3 := by
    intro y x hy hx
    rw [(e4 y x hy hx).2 (hz y x), sample_some 0 c2 hy hx (by omega)]
  simp only [packed_strideOf]
  refine ⟨fun hi => ⟨rfl, rfl, fun y x hy hx => ?_⟩, ha⟩
  obtain ⟨t', e1, _, _, e4⟩ := C128_premultiply_f16 cpu hi (src := store) (dst := dst) c2 hdv rfl rfl c3.1 hfin
  rw [t1] at e1
  obtain rfl := Option.some.inj e1
  rw [hs] at e4
  simp only [packed_strideOf]
  refine ⟨fun c hc => ?_, ha y x hy hx⟩
  obtain ⟨v, v1, v2⟩ := (e4 y x hy hx).1 c hc
  have : pxD 0 t.buffer (store.width * 4) 4 y x c = v := by unfold pxD; rw [v1]; rfl
  rw [this]
  exact v2

/-- The resized samples are 16-bit patterns. -/
theorem resize_f16_lt {W : ℕ} {L : Lib} {r : ResamplingFunction} {store into mid : Image ℕ} (h : AcceptedF W 4 r store into)
    (cpu : HalfCpu) (hm : genericResize W 4 (formatF16 cpu halfBits 4) L r store into = some (.ok (), mid))
    {y x c : ℕ} (hy : y < into.height) (hx : x < into.width) (hc : c < 4) :
    pxD 0 mid.buffer (into.strideOf 4) 4 y x c < 65536 := by
  obtain ⟨vf, hf, out, _, _, _, _, o1, o4⟩ := C122_f16_value (L := L) h cpu halfBits rfl
  rw [hm] at o1
  simp only [Option.some.injEq, Prod.mk.injEq, true_and] at o1
  subst o1
  unfold pxD
  rw [o4 y x c hy hx hc, Option.getD_some]
  unfold separable
  dsimp only
  have hs := h.sizes
  split_ifs with h1 h2
  · omega
  all_goals exact narrowX_lt _ _

/-! ### C132: the whole call -/

/-- **C132.** RGBA f16 with `premultiply_alpha = true`, on every x86 CPU and for any samples: the call returns `Ok` and
no access leaves a buffer. It is premultiplication into a packed copy, the plain resize of that copy, and
unpremultiplication of the result: alpha and everything outside the pixels is as the plain resize left it. For finite
samples (no alpha a minus zero), with F16C or without SSE4.1, the copy has every colour times alpha, rounded once, and
the alphas of the source. -/
theorem C132_alpha_pipeline_f16 {W : ℕ} {L : Lib} {r : ResamplingFunction} {store into : Image ℕ}
    (h : AcceptedF W 4 r store into) (hch : store.channels = 4) (cpu : HalfCpu) :
    ∃ work mid out,
      genericResize W 4 (formatF16 cpu halfBits 4) L r work into = some (.ok (), mid) ∧
      (alphaF16 cpu halfBits).unpremultiply mid = some out ∧
      genericResizeWithAlpha W 4 (formatF16 cpu halfBits 4) (alphaF16 cpu halfBits) L r store into true = some (.ok (), out) ∧
      SameShape out into ∧
      (∀ p, ¬ IsPixelPos (into.strideOf 4) 4 into.width into.height p → out.buffer[p]? = mid.buffer[p]?) ∧
      (∀ y x, y < into.height → x < into.width →
        sample out.buffer (into.strideOf 4) 4 y x 3 = sample mid.buffer (into.strideOf 4) 4 y x 3) ∧
      ((∀ v ∈ store.buffer, FiniteHalf v) → (∀ y x, pxD 0 store.buffer (store.strideOf 4) 4 y x 3 ≠ 0x8000) →
        vIeee cpu = true → PremultipliedH store work) := by
  obtain ⟨work, w1, w2, w3, w4, w5⟩ := premultiplied_f16 h hch cpu
  obtain ⟨mid, m1, m2⟩ := C119_f16_no_oob (L := L) w4 cpu halfBits
  obtain ⟨c1, c2, c3, _⟩ := checkResize_ok.1 h.checked
  have hst : mid.strideOf 4 = into.strideOf 4 := sameShape_strideOf m2
  have hmw : mid.width = into.width := m2.1
  have hmh : mid.height = into.height := m2.2.1
  have hv := sameShape_validate m2 c1
  obtain ⟨out, o1, o2, o3, o4⟩ := unpremultiplyH_spec cpu halfBits (img := mid) hv (by rw [hmw]; exact c3.2.2.1)
  rw [hst, hmw, hmh] at o4
  refine ⟨work, mid, out, m1, o1, withAlpha_compose h.checked h.filter h.sizes w1 w2 w3 m1 o1, ?_, ?_, ?_, ?_⟩
  · obtain ⟨a1, a2, a3, a4, a5, a6⟩ := o2
    obtain ⟨b1, b2, b3, b4, b5, b6⟩ := m2
    exact ⟨a1.trans b1, a2.trans b2, a3.trans b3, a4.trans b4, a5.trans b5, a6.trans b6⟩
  · intro p hp
    apply o3
    rw [hst, hmw, hmh]
    exact hp
  · intro y x hy hx
    have := sample_some (N := 4) 0 hv (y := y) (x := x) (c := 3) (by rw [hmh]; exact hy) (by rw [hmw]; exact hx) (by omega)
    rw [hst] at this
    rw [this, o4 y x 3 hy hx (by omega), pixelVal, if_neg (by omega)]
    refine congrArg some ?_
    split_ifs
    · exact Nat.mod_eq_of_lt (resize_f16_lt w4 cpu m1 hy hx (by omega))
    · rfl
  · intro hfin hz hi
    exact (w5 hfin hz).1 hi

namespace Demo
/-- 34 × 1 pixels: colours 1/2, -2 and 1, alpha 1/2. -/
def ah : Image ℕ :=
  { buffer := (List.replicate 34 [0x3800, 0xC000, 0x3C00, 0x3800]).flatten, channels := 4, width := 34, height := 1,
    stride := 136, bitDepth := 0 }
/-- A 17 × 1 destination with two elements of padding. -/
def ahz : Image ℕ := { buffer := List.replicate 70 7, channels := 4, width := 17, height := 1, stride := 70, bitDepth := 0 }
theorem ahcall : AcceptedF (2 ^ 64) 4 .bilinear ah ahz := by constructor <;> decide +kernel
theorem ah_finite : ∀ v ∈ ah.buffer, FiniteHalf v := by
  unfold FiniteHalf
  decide +kernel
theorem ah_alpha : ∀ y x, pxD 0 ah.buffer (ah.strideOf 4) 4 y x 3 ≠ 0x8000 := by
  intro y x
  exact pxD_all (P := fun v => v ≠ 0x8000) (by decide +kernel) (by decide) _ _ _ _ _
end Demo

example : ∃ work mid out, PremultipliedH Demo.ah work ∧
    genericResize (2 ^ 64) 4 (formatF16 ⟨true, true, true, true, false⟩ halfBits 4) demoLib .bilinear work Demo.ahz = some (.ok (), mid) ∧
    genericResizeWithAlpha (2 ^ 64) 4 (formatF16 ⟨true, true, true, true, false⟩ halfBits 4)
      (alphaF16 ⟨true, true, true, true, false⟩ halfBits) demoLib .bilinear Demo.ah Demo.ahz true = some (.ok (), out) := by
  obtain ⟨work, mid, out, h1, _, h3, _, _, _, h4⟩ := C132_alpha_pipeline_f16 (L := demoLib) Demo.ahcall rfl ⟨true, true, true, true, false⟩
  exact ⟨work, mid, out, h4 Demo.ah_finite Demo.ah_alpha rfl, h1, h3⟩

/-! ### C133: the alpha channel -/

/-- **C133.** The alpha channel of a resized RGBA f16 image of finite samples does not depend on `premultiply_alpha`: on
every x86 CPU both calls succeed and store the same alpha in every pixel (no alpha of the source a minus zero). -/
theorem C133_alpha_same_f16 {W : ℕ} {L : Lib} {r : ResamplingFunction} {store into : Image ℕ}
    (h : AcceptedF W 4 r store into) (hch : store.channels = 4) (cpu : HalfCpu)
    (hfin : ∀ v ∈ store.buffer, FiniteHalf v) (hz : ∀ y x, pxD 0 store.buffer (store.strideOf 4) 4 y x 3 ≠ 0x8000) :
    ∃ out out',
      genericResizeWithAlpha W 4 (formatF16 cpu halfBits 4) (alphaF16 cpu halfBits) L r store into true = some (.ok (), out) ∧
      genericResizeWithAlpha W 4 (formatF16 cpu halfBits 4) (alphaF16 cpu halfBits) L r store into false = some (.ok (), out') ∧
      ∀ y x, y < into.height → x < into.width →
        sample out.buffer (into.strideOf 4) 4 y x 3 = sample out'.buffer (into.strideOf 4) 4 y x 3 := by
  obtain ⟨work, w1, w2, w3, w4, w5⟩ := premultiplied_f16 h hch cpu
  have w6 := (w5 hfin hz).2
  obtain ⟨vf, hf, mid, ev, eh, Tv, Th, m1, m2, _⟩ := resize_f16 (L := L) w4 cpu halfBits
  obtain ⟨out', p1, p2⟩ := C119_f16_no_oob (L := L) h cpu halfBits
  obtain ⟨c1, c2, c3, _⟩ := checkResize_ok.1 h.checked
  have hst : mid.strideOf 4 = into.strideOf 4 := sameShape_strideOf m2
  have hmw : mid.width = into.width := m2.1
  have hmh : mid.height = into.height := m2.2.1
  have hv := sameShape_validate m2 c1
  obtain ⟨out, o1, _, _, o4⟩ := unpremultiplyH_spec cpu halfBits (img := mid) hv (by rw [hmw]; exact c3.2.2.1)
  rw [hst, hmw, hmh] at o4
  refine ⟨out, out', withAlpha_compose h.checked h.filter h.sizes w1 w2 w3 m1 o1, withAlpha_false.trans p1, ?_⟩
  intro y x hy hx
  obtain ⟨mid', out'', q1, q2, q3⟩ := C123_f16_locality (L := L) w4 h cpu halfBits ⟨w2.symm, w3.symm⟩ ⟨rfl, rfl⟩
    (y := y) (x := x) (c := 3) hy hx (by omega) (by
      intro vf' hf' j k ev' eh' hj hk
      rw [ev] at ev'
      rw [eh] at eh'
      obtain rfl := Option.some.inj ev'
      obtain rfl := Option.some.inj eh'
      apply w6
      · rw [← w3]
        split_ifs at hj with q
        · omega
        · have := Tv.inside y hy; omega
      · rw [← w2]
        split_ifs at hk with q
        · omega
        · have := Th.inside x hx; omega)
  rw [m1] at q1
  rw [p1] at q2
  simp only [Option.some.injEq, Prod.mk.injEq, true_and] at q1 q2
  subst q1
  subst q2
  rw [← q3, o4 y x 3 hy hx (by omega), pixelVal, if_neg (by omega)]
  have := sample_some (N := 4) 0 hv (y := y) (x := x) (c := 3) (by rw [hmh]; exact hy) (by rw [hmw]; exact hx) (by omega)
  rw [hst] at this
  rw [this]
  refine congrArg some ?_
  split_ifs
  · exact Nat.mod_eq_of_lt (resize_f16_lt w4 cpu m1 hy hx (by omega))
  · rfl

example : ∃ out out',
    genericResizeWithAlpha (2 ^ 64) 4 (formatF16 ⟨true, false, false, true, false⟩ halfBits 4)
      (alphaF16 ⟨true, false, false, true, false⟩ halfBits) demoLib .bilinear Demo.ah Demo.ahz true = some (.ok (), out) ∧
    genericResizeWithAlpha (2 ^ 64) 4 (formatF16 ⟨true, false, false, true, false⟩ halfBits 4)
      (alphaF16 ⟨true, false, false, true, false⟩ halfBits) demoLib .bilinear Demo.ah Demo.ahz false = some (.ok (), out') ∧
    sample out.buffer 70 4 0 16 3 = sample out'.buffer 70 4 0 16 3 := by
  obtain ⟨out, out', h1, h2, h3⟩ := C133_alpha_same_f16 (L := demoLib) Demo.ahcall rfl ⟨true, false, false, true, false⟩
    Demo.ah_finite Demo.ah_alpha
  exact ⟨out, out', h1, h2, h3 0 16 (by decide) (by decide)⟩

/-! ### C134: the colours -/

/-- **C134 (partial).** With `premultiply_alpha = true`, every colour of the result should be the resized premultiplied
colour divided by the resized alpha, to within rounding, and 0 where that alpha is 0. Proved: on every x86 CPU for the
pixels after the last full block (of 16 with AVX2 and F16C, 8 with SSE4.1; all pixels on other CPUs) where the resized
samples are finite and the quotient is at most 65500, and for pixels of alpha 0 everywhere. Missing: the other pixels,
which are multiplied by alpha once more (`C134_violated`). -/
theorem C134_colours_f16_partial {W : ℕ} {L : Lib} {r : ResamplingFunction} {store into : Image ℕ}
    (h : AcceptedF W 4 r store into) (hch : store.channels = 4) (cpu : HalfCpu)
    (hfin : ∀ v ∈ store.buffer, FiniteHalf v) (hz : ∀ y x, pxD 0 store.buffer (store.strideOf 4) 4 y x 3 ≠ 0x8000) :
    ∃ work mid out, (vIeee cpu = true → PremultipliedH store work) ∧
      genericResize W 4 (formatF16 cpu halfBits 4) L r work into = some (.ok (), mid) ∧
      genericResizeWithAlpha W 4 (formatF16 cpu halfBits 4) (alphaF16 cpu halfBits) L r store into true = some (.ok (), out) ∧
      ∀ y x, y < into.height → x < into.width → ∃ a, sample mid.buffer (into.strideOf 4) 4 y x 3 = some a ∧
        ∀ c, c < 3 → ∃ p v, sample mid.buffer (into.strideOf 4) 4 y x c = some p ∧
          sample out.buffer (into.strideOf 4) 4 y x c = some v ∧
          (FiniteHalf a → dec a = 0 → v = 0) ∧
          (vectorPixelsH cpu into.width ≤ x → FiniteHalf p → FiniteHalf a → dec a ≠ 0 → |dec p / dec a| ≤ 65500 →
            FiniteHalf v ∧ |dec v - dec p / dec a| ≤ |dec p / dec a| / 2000 + 1 / 2 ^ 24) := by
  obtain ⟨work, w1, w2, w3, w4, w5⟩ := premultiplied_f16 h hch cpu
  obtain ⟨mid, m1, m2⟩ := C119_f16_no_oob (L := L) w4 cpu halfBits
  obtain ⟨c1, c2, c3, _⟩ := checkResize_ok.1 h.checked
  have hst : mid.strideOf 4 = into.strideOf 4 := sameShape_strideOf m2
  have hmw : mid.width = into.width := m2.1
  have hmh : mid.height = into.height := m2.2.1
  have hv := sameShape_validate m2 c1
  obtain ⟨out, o1, o2, o3, o4⟩ := unpremultiplyH_spec cpu halfBits (img := mid) hv (by rw [hmw]; exact c3.2.2.1)
  rw [hst, hmw, hmh] at o4
  refine ⟨work, mid, out, fun hi => (w5 hfin hz).1 hi, m1,
    withAlpha_compose h.checked h.filter h.sizes w1 w2 w3 m1 o1, fun y x hy hx => ?_⟩
  have hsamp : ∀ c, c < 4 → sample mid.buffer (into.strideOf 4) 4 y x c = some (pxD 0 mid.buffer (into.strideOf 4) 4 y x c) := by
    intro c hc
    have := sample_some (N := 4) 0 hv (by rw [hmh]; exact hy) (by rw [hmw]; exact hx) hc
    rw [hst] at this
    exact this
  refine ⟨_, hsamp 3 (by omega), fun c hc => ⟨_, _, hsamp c (by omega), o4 y x c hy hx (by omega), ?_, ?_⟩⟩
  · intro ha h0
    rw [pixelVal, if_pos hc]
    have ez : enc 0 = 0 := by decide +kernel
    have ez' : ∀ b, halfBits.narrowX b 0 = 0 := by decide +kernel
    split_ifs
    · unfold u16Col
      dsimp only
      rw [Nat.mod_eq_of_lt ha.1, widenX_finite _ ha, if_pos h0, ez']
      rfl
    · show enc (if dec _ ≠ 0 then _ else 0) = 0
      rw [if_neg (by rw [h0]; simp), ez]
  · intro hxv hp ha h0 hq
    rw [if_neg (by omega), pixelVal, if_pos hc]
    have e : halfBits.narrow (if halfBits.widen (pxD 0 mid.buffer (into.strideOf 4) 4 y x 3) ≠ 0 then
        F32.rnd (halfBits.widen (pxD 0 mid.buffer (into.strideOf 4) 4 y x c) *
          F32.rnd (1 / halfBits.widen (pxD 0 mid.buffer (into.strideOf 4) 4 y x 3))) else 0) =
        enc (F32.rnd (dec (pxD 0 mid.buffer (into.strideOf 4) 4 y x c) *
          F32.rnd (1 / dec (pxD 0 mid.buffer (into.strideOf 4) 4 y x 3)))) := by
      rw [if_pos (show halfBits.widen _ ≠ 0 from h0)]
      rfl
    rw [e]
    exact quot_half ha h0 hq

/-- The hypotheses at the last pixel of a row of 17 on a CPU with AVX2 and F16C: the plain resize has -1 and alpha 1/2. -/
example : ∃ work mid out v, PremultipliedH Demo.ah work ∧
    genericResize (2 ^ 64) 4 (formatF16 ⟨true, true, true, true, false⟩ halfBits 4) demoLib .bilinear work Demo.ahz = some (.ok (), mid) ∧
    genericResizeWithAlpha (2 ^ 64) 4 (formatF16 ⟨true, true, true, true, false⟩ halfBits 4)
      (alphaF16 ⟨true, true, true, true, false⟩ halfBits) demoLib .bilinear Demo.ah Demo.ahz true = some (.ok (), out) ∧
    sample out.buffer 70 4 0 16 1 = some v ∧
    ∀ p a, sample mid.buffer 70 4 0 16 1 = some p → sample mid.buffer 70 4 0 16 3 = some a → p = 0xBC00 → a = 0x3800 →
      |dec v + 2| ≤ 1 / 500 := by
  obtain ⟨work, mid, out, h1, h2, h3, h4⟩ := C134_colours_f16_partial (L := demoLib) Demo.ahcall rfl
    ⟨true, true, true, true, false⟩ Demo.ah_finite Demo.ah_alpha
  obtain ⟨a, a1, a2⟩ := h4 0 16 (by decide) (by decide)
  obtain ⟨p, v, v1, v2, _, v4⟩ := a2 1 (by decide)
  refine ⟨work, mid, out, v, h1 rfl, h2, h3, v2, fun p' a' hp ha ep ea => ?_⟩
  obtain rfl := Option.some.inj (hp.symm.trans v1)
  obtain rfl := Option.some.inj (ha.symm.trans a1)
  subst ep
  subst ea
  have e1 : dec 0xBC00 / dec 0x3800 = -2 := by decide +kernel
  rw [e1] at v4
  have e2 : |(-2 : ℚ)| = 2 := by rw [abs_neg, abs_of_pos (by norm_num)]
  rw [e2] at v4
  have := (v4 (by decide) ⟨by decide, by decide⟩ ⟨by decide, by decide⟩ (by decide +kernel) (by norm_num)).2
  rw [sub_neg_eq_add] at this
  exact le_trans this (by norm_num)

/-- **C134 fails**: a flat picture of colour -2 and alpha 1/2, 34 pixels wide, shrunk to 17 on a CPU with AVX2, F16C
and FMA. The last pixel has colour -2 again, the others have -1/2. -/
theorem C134_violated :
    (genericResizeWithAlpha (2 ^ 64) 4 (formatF16 ⟨true, true, true, true, false⟩ halfBits 4)
      (alphaF16 ⟨true, true, true, true, false⟩ halfBits) demoLib .bilinear Demo.ah Demo.ahz true).map
        (fun q => (sample q.2.buffer 70 4 0 16 1, sample q.2.buffer 70 4 0 15 1)) = some (some 0xC000, some 0xB800) ∧
    dec 0xC000 = -2 ∧ dec 0xB800 = -(1 / 2) := by
  decide +kernel

end PicScale
