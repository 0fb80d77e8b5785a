import Verif.Lemmas.AlphaCompose
import Verif.Props.AlphaX86F32
import Verif.Props.X86F32
import Verif.SpecColors

/-!
Property theorems about RGBA f32 resizes with alpha on x86: C96–C98.
-/

namespace PicScale

open Spec

namespace Spec

/-- `work` is the premultiplied copy of `src`: every colour is the rounded product with alpha, every alpha is
kept. -/
def PremultipliedF (src work : Image ℚ) : Prop :=
  work.width = src.width ∧ work.height = src.height ∧
    ∀ y x, y < src.height → x < src.width →
      (∀ c, c < 3 → pxD 0 work.buffer (work.strideOf 4) 4 y x c = F32.rnd
        (pxD 0 src.buffer (src.strideOf 4) 4 y x c * pxD 0 src.buffer (src.strideOf 4) 4 y x 3)) ∧
      sample work.buffer (work.strideOf 4) 4 y x 3 = sample src.buffer (src.strideOf 4) 4 y x 3

/-- The picture has two pixels with different alpha. -/
def AlphaVariesF (img : Image ℚ) : Prop :=
  ∃ y x y' x', y < img.height ∧ x < img.width ∧ y' < img.height ∧ x' < img.width ∧
    pxD 0 img.buffer (img.strideOf 4) 4 y x 3 ≠ pxD 0 img.buffer (img.strideOf 4) 4 y' x' 3

/-- `bits` is `f32::to_bits` on the samples of the image: 32 bits, different for different values. (Zero has two
patterns; an image with both zeros is outside this statement.) -/
def BitPatterns (bits : ℚ → ℕ) (img : Image ℚ) : Prop :=
  (∀ v ∈ img.buffer, bits v < 2 ^ 32) ∧ ∀ u ∈ img.buffer, ∀ v ∈ img.buffer, bits u = bits v → u = v

end Spec

theorem sample_some {S : Type} {N y x c : ℕ} {img : Image S} (d : S) (hv : img.validate N = .ok ()) (hy : y < img.height)
    (hx : x < img.width) (hc : c < N) :
    sample img.buffer (img.strideOf N) N y x c = some (pxD d img.buffer (img.strideOf N) N y x c) := by
  obtain ⟨hl, hs⟩ := validate_facts hv
  unfold pxD sample
  rw [List.getElem?_eq_getElem, Option.getD_some]
  rw [hl]
  have h1 : (y + 1) * img.strideOf N ≤ img.height * img.strideOf N := Nat.mul_le_mul_right _ (by omega)
  have h2 : (x + 1) * N ≤ img.width * N := Nat.mul_le_mul_right _ (by omega)
  rw [Nat.succ_mul] at h1 h2
  have hcomm : img.strideOf N * img.height = img.height * img.strideOf N := Nat.mul_comm _ _
  omega

/-- The first step: the premultiplied copy. -/
theorem premultiplied_f32 {W : ℕ} {r : ResamplingFunction} {store into : Image ℚ} (h : AcceptedF W 4 r store into)
    (hch : store.channels = 4) (cpu : Cpu) (fma fused : Bool) (bits : ℚ → ℕ) :
    ∃ work, premultiplied W 4 (formatF32X86 cpu fma fused ratOps 4) (alphaX86F32 cpu bits) true store into = some work ∧
      work.width = store.width ∧ work.height = store.height ∧
      ((alphaX86F32 cpu bits).isNeeded store = false → work = store) ∧
      ((alphaX86F32 cpu bits).isNeeded store = true → PremultipliedF store work) ∧
      (∀ y x, y < store.height → x < store.width →
        sample work.buffer (work.strideOf 4) 4 y x 3 = sample store.buffer (store.strideOf 4) 4 y x 3) ∧
      AcceptedF W 4 r work into := by
  obtain ⟨c1, c2, c3, c4, _⟩ := checkResize_ok.1 h.checked
  rw [hch] at c4
  have hfit := fits_of_overflow c4
  unfold premultiplied
  by_cases hn : (alphaX86F32 cpu bits).isNeeded store = true
  · rw [if_pos ⟨rfl, hn⟩, tempImage_some hfit]
    simp only [Option.bind_eq_bind, Option.bind_some]
    obtain ⟨t, t1, t2, _, t4⟩ := C73_premultiply cpu bits (src := store)
        (dst := ⟨List.replicate (store.width * store.height * 4) (formatF32X86 cpu fma fused ratOps 4).default, 4,
          store.width, store.height, store.width * 4, into.bitDepth⟩) c2
        (packed_validate (by rw [List.length_replicate])) rfl rfl c3.1
    rw [t1]
    simp only [Option.bind_some]
    obtain ⟨_, _, _, _, _, tl⟩ := t2
    simp only [List.length_replicate] at tl
    simp only [packed_strideOf] at t4
    have ha : ∀ y x, y < store.height → x < store.width → sample t.buffer (store.width * 4) 4 y x 3 =
        sample store.buffer (store.strideOf 4) 4 y x 3 := by
      intro y x hy hx
      rw [(t4 y x hy hx).2, sample_some 0 c2 hy hx (by omega)]
    refine ⟨_, rfl, rfl, rfl, fun h0 => absurd hn (by rw [h0]; decide), fun _ => ⟨rfl, rfl, fun y x hy hx => ?_⟩, ?_, ?_⟩
    · rw [packed_strideOf]
      refine ⟨fun c hc => ?_, ha y x hy hx⟩
      show pxD 0 t.buffer (store.width * 4) 4 y x c = _
      unfold pxD
      rw [(t4 y x hy hx).1 c hc]
      rfl
    · rw [packed_strideOf]
      exact ha
    · exact ⟨h.channels, check_packed h.checked hch tl, h.filter, h.sizes, h.small, h.area, h.fits⟩
  · rw [if_neg (by tauto)]
    exact ⟨store, rfl, rfl, rfl, fun _ => rfl, fun h1 => absurd h1 hn, fun _ _ _ _ => rfl, h⟩

/-! ### C96: the whole call -/

/-- **C96.** RGBA f32 with `premultiply_alpha = true`, on every x86 CPU: the call returns `Ok`, no access leaves a
buffer, row padding is kept, and the result is the plain resize of `work` with every colour divided by the resized
alpha of its pixel — 0 where that is 0, otherwise `p / a` to within one part in `2^22` — and the resized alpha itself.
`work` is the source if its alpha is constant and its premultiplied copy otherwise. -/
theorem C96_alpha_pipeline_f32 {W : ℕ} {L : Lib} {r : ResamplingFunction} {store into : Image ℚ}
    (h : AcceptedF W 4 r store into) (hch : store.channels = 4) (cpu : Cpu) (fma fused : Bool) {bits : ℚ → ℕ}
    (hb : BitPatterns bits store) :
    ∃ work mid out,
      (¬ AlphaVariesF store → work = store) ∧ (AlphaVariesF store → PremultipliedF store work) ∧
      genericResize W 4 (formatF32X86 cpu fma fused ratOps 4) L r work into = some (.ok (), mid) ∧
      genericResizeWithAlpha W 4 (formatF32X86 cpu fma fused ratOps 4) (alphaX86F32 cpu bits) L r store into true =
        some (.ok (), out) ∧
      SameShape out into ∧ PaddingKept 4 into out ∧
      ∀ y x, y < into.height → x < into.width → ∃ a, sample mid.buffer (into.strideOf 4) 4 y x 3 = some a ∧
        sample out.buffer (into.strideOf 4) 4 y x 3 = some a ∧
        ∀ c, c < 3 → ∃ p v, sample mid.buffer (into.strideOf 4) 4 y x c = some p ∧
          sample out.buffer (into.strideOf 4) 4 y x c = some v ∧ (a = 0 → v = 0) ∧
          (1 / 2 ^ 100 ≤ |a| → |a| ≤ 2 ^ 100 → |v - p / a| ≤ |p / a| / 2 ^ 22 + 1 / 2 ^ 150) := by
  obtain ⟨work, w1, w2, w3, w4, w5, _, w7⟩ := premultiplied_f32 h hch cpu fma fused bits
  obtain ⟨mid, m1, m2, m3⟩ := C87_f32_no_oob (L := L) w7 cpu fma fused ratOps
  obtain ⟨c1, c2, c3, _⟩ := checkResize_ok.1 h.checked
  have hneed : (alphaX86F32 cpu bits).isNeeded store = true ↔ AlphaVariesF store :=
    C37_alpha_check_f32 (ρ := F32.rnd) c2 c3.1 c3.2.1 (by have := h.small.1; omega) hb.1 hb.2
  have hst : mid.strideOf 4 = into.strideOf 4 := sameShape_strideOf m2
  have hmw : mid.width = into.width := m2.1
  have hmh : mid.height = into.height := m2.2.1
  have hv := sameShape_validate m2 c1
  obtain ⟨out, o1, o2, o3, o4⟩ := unpremultiplyF_spec cpu bits (img := mid) hv (by rw [hmw]; exact c3.2.2.1)
  rw [hst, hmw, hmh] at o4
  refine ⟨work, mid, out, ?_, fun hva => w5 (hneed.2 hva), m1,
    withAlpha_compose h.checked h.filter h.sizes w1 w2 w3 m1 o1, ?_, ?_, ?_⟩
  · intro hva
    apply w4
    by_contra hx
    exact hva (hneed.1 (by simpa using hx))
  · obtain ⟨a1, a2, a3, a4, a5, a6⟩ := o2
    obtain ⟨b1, b2, b3, b4, b5, b6⟩ := m2
    exact ⟨a1.trans b1, a2.trans b2, a3.trans b3, a4.trans b4, a5.trans b5, a6.trans b6⟩
  · intro p hp
    rw [← m3 p hp]
    apply o3
    rw [hst, hmw, hmh]
    exact hp
  · intro y x hy hx
    have hsamp : ∀ c, c < 4 → sample mid.buffer (into.strideOf 4) 4 y x c = some (pxD 0 mid.buffer (into.strideOf 4) 4 y x c) := by
      intro c hc
      have := sample_some (N := 4) 0 hv (by rw [hmh]; exact hy) (by rw [hmw]; exact hx) hc
      rw [hst] at this
      exact this
    refine ⟨_, hsamp 3 (by omega), ?_, fun c hc => ⟨_, _, hsamp c (by omega), o4 y x c hy hx (by omega), ?_, ?_⟩⟩
    · rw [o4 y x 3 hy hx (by omega), pixelVal, if_neg (by omega)]
      rfl
    · intro h0
      rw [pixelVal, if_pos hc, if_pos h0]
    · intro b1 b2
      rw [pixelVal, if_pos hc]
      generalize pxD 0 mid.buffer (into.strideOf 4) 4 y x 3 = a at *
      have h0 : a ≠ 0 := by
        rintro rfl
        rw [abs_zero] at b1
        norm_num at b1
      rw [if_neg h0]
      generalize pxD 0 mid.buffer (into.strideOf 4) 4 y x c = v at *
      split_ifs
      · refine (F32.rnd_err_le (v / a)).trans ?_
        have : |v / a| / 2 ^ 24 ≤ |v / a| / 2 ^ 22 := by gcongr <;> norm_num
        linarith
      · exact recip_quot_err b1 b2

namespace Demo
/-- 4 × 1 pixels of colour 8: the first two have alpha `a`, the others 1/2. -/
def af (a : ℚ) : Image ℚ :=
  { buffer := [8, 8, 8, a, 8, 8, 8, a, 8, 8, 8, 1 / 2, 8, 8, 8, 1 / 2], channels := 4, width := 4, height := 1, stride := 16,
    bitDepth := 0 }
/-- A 2 × 1 destination with two elements of padding. -/
def afz : Image ℚ := { buffer := List.replicate 10 7, channels := 4, width := 2, height := 1, stride := 10, bitDepth := 0 }
/-- `to_bits` of the samples used. -/
def bits (q : ℚ) : ℕ := if q = 8 then 0x41000000 else if q = 1 / 2 then 0x3f000000 else if q = 1 then 0x3f800000 else 0

theorem afcall : AcceptedF (2 ^ 64) 4 .bilinear (af 1) afz := by constructor <;> decide +kernel
theorem afcall' : AcceptedF (2 ^ 64) 4 .bilinear (af (1 / 2)) afz := by constructor <;> decide +kernel
theorem afbits : BitPatterns bits (af 1) := by
  constructor
  · decide +kernel
  · decide +kernel
end Demo

example : ∃ work mid, PremultipliedF (Demo.af 1) work ∧
    genericResize (2 ^ 64) 4 (formatF32X86 ⟨true, true⟩ true true ratOps 4) demoLib .bilinear work Demo.afz = some (.ok (), mid) := by
  obtain ⟨work, mid, _, _, h, h', _⟩ := C96_alpha_pipeline_f32 (L := demoLib) Demo.afcall rfl ⟨true, true⟩ true true Demo.afbits
  exact ⟨work, mid, h ⟨0, 0, 0, 2, by decide, by decide, by decide, by decide, by decide +kernel⟩, h'⟩

/-! ### C97: the alpha channel -/

/-- **C97.** The alpha channel of a resized RGBA f32 image does not depend on `premultiply_alpha`: on every x86 CPU
both calls succeed and store the same alpha in every pixel. -/
theorem C97_alpha_same {W : ℕ} {L : Lib} {r : ResamplingFunction} {store into : Image ℚ}
    (h : AcceptedF W 4 r store into) (hch : store.channels = 4) (cpu : Cpu) (fma fused : Bool) (bits : ℚ → ℕ) :
    ∃ out out',
      genericResizeWithAlpha W 4 (formatF32X86 cpu fma fused ratOps 4) (alphaX86F32 cpu bits) L r store into true =
        some (.ok (), out) ∧
      genericResizeWithAlpha W 4 (formatF32X86 cpu fma fused ratOps 4) (alphaX86F32 cpu bits) L r store into false =
        some (.ok (), out') ∧
      ∀ y x, y < into.height → x < into.width →
        sample out.buffer (into.strideOf 4) 4 y x 3 = sample out'.buffer (into.strideOf 4) 4 y x 3 := by
  obtain ⟨work, w1, w2, w3, _, _, w6, w7⟩ := premultiplied_f32 h hch cpu fma fused bits
  obtain ⟨vf, hf, mid, ev, eh, Tv, Th, m1, m2, m3, _⟩ := f32X86_raw (L := L) w7 cpu fma fused ratOps
  obtain ⟨out', p1, p2, _⟩ := C87_f32_no_oob (L := L) h cpu fma fused ratOps
  obtain ⟨c1, c2, c3, _⟩ := checkResize_ok.1 h.checked
  have hst : mid.strideOf 4 = into.strideOf 4 := sameShape_strideOf m2
  have hmw : mid.width = into.width := m2.1
  have hmh : mid.height = into.height := m2.2.1
  have hv := sameShape_validate m2 c1
  obtain ⟨out, o1, _, _, o4⟩ := unpremultiplyF_spec cpu bits (img := mid) hv (by rw [hmw]; exact c3.2.2.1)
  rw [hst, hmw, hmh] at o4
  refine ⟨out, out', withAlpha_compose h.checked h.filter h.sizes w1 w2 w3 m1 o1, withAlpha_false.trans p1, ?_⟩
  intro y x hy hx
  obtain ⟨mid', out'', q1, q2, q3⟩ := C94_f32_locality (L := L) w7 h cpu fma fused ratOps ⟨w2.symm, w3.symm⟩ ⟨rfl, rfl⟩
    (y := y) (x := x) (c := 3) hy hx (by omega) (by
      intro vf' hf' j k ev' eh' hj hk
      rw [ev] at ev'
      rw [eh] at eh'
      obtain rfl := Option.some.inj ev'
      obtain rfl := Option.some.inj eh'
      apply w6
      · rw [← w3]
        split_ifs at hj with q
        · omega
        · have := Tv.inside y hy; omega
      · rw [← w2]
        split_ifs at hk with q
        · omega
        · have := Th.inside x hx; omega)
  rw [m1] at q1
  rw [p1] at q2
  simp only [Option.some.injEq, Prod.mk.injEq, true_and] at q1 q2
  subst q1
  subst q2
  rw [← q3, o4 y x 3 hy hx (by omega), pixelVal, if_neg (by omega)]
  have := sample_some (N := 4) (0 : ℚ) hv (y := y) (x := x) (c := 3) (by rw [hmh]; exact hy) (by rw [hmw]; exact hx) (by omega)
  rw [hst] at this
  rw [this]
  rfl

example : ∃ out out',
    genericResizeWithAlpha (2 ^ 64) 4 (formatF32X86 ⟨true, true⟩ true true ratOps 4) (alphaX86F32 ⟨true, true⟩ Demo.bits)
      demoLib .bilinear (Demo.af 1) Demo.afz true = some (.ok (), out) ∧
    genericResizeWithAlpha (2 ^ 64) 4 (formatF32X86 ⟨true, true⟩ true true ratOps 4) (alphaX86F32 ⟨true, true⟩ Demo.bits)
      demoLib .bilinear (Demo.af 1) Demo.afz false = some (.ok (), out') ∧
    sample out.buffer 10 4 0 1 3 = sample out'.buffer 10 4 0 1 3 := by
  obtain ⟨out, out', h1, h2, h3⟩ := C97_alpha_same (L := demoLib) Demo.afcall rfl ⟨true, true⟩ true true Demo.bits
  exact ⟨out, out', h1, h2, h3 0 1 (by decide) (by decide)⟩

/-! ### C98: constant alpha -/

/-- **C98 (partial).** Asking for premultiplication should not change the colours of a picture of constant alpha by more
than rounding. It does (`C98_violated`): a source of constant alpha is not premultiplied, but the result is still divided
by alpha. Proved: the exact result, and that opaque pictures whose resized alpha is exactly 1 keep the colours of the
plain resize. -/
theorem C98_constant_alpha_partial {W : ℕ} {L : Lib} {r : ResamplingFunction} {store into : Image ℚ}
    (h : AcceptedF W 4 r store into) (hch : store.channels = 4) (cpu : Cpu) (fma fused : Bool) {bits : ℚ → ℕ}
    (hb : BitPatterns bits store) (hc : ¬ AlphaVariesF store) :
    ∃ plain out,
      genericResizeWithAlpha W 4 (formatF32X86 cpu fma fused ratOps 4) (alphaX86F32 cpu bits) L r store into false =
        some (.ok (), plain) ∧
      genericResizeWithAlpha W 4 (formatF32X86 cpu fma fused ratOps 4) (alphaX86F32 cpu bits) L r store into true =
        some (.ok (), out) ∧
      ∀ y x, y < into.height → x < into.width → ∃ a, sample plain.buffer (into.strideOf 4) 4 y x 3 = some a ∧
        ∀ c, c < 3 → ∃ p v, sample plain.buffer (into.strideOf 4) 4 y x c = some p ∧
          sample out.buffer (into.strideOf 4) 4 y x c = some v ∧ (a = 0 → v = 0) ∧ (a = 1 → v = F32.rnd p) ∧
          (1 / 2 ^ 100 ≤ |a| → |a| ≤ 2 ^ 100 → |v - p / a| ≤ |p / a| / 2 ^ 22 + 1 / 2 ^ 150) := by
  obtain ⟨work, mid, out, w1, _, m1, o1, _, _, o4⟩ := C96_alpha_pipeline_f32 (L := L) h hch cpu fma fused hb
  obtain rfl := w1 hc
  refine ⟨mid, out, withAlpha_false.trans m1, o1, fun y x hy hx => ?_⟩
  obtain ⟨a, a1, a2, a3⟩ := o4 y x hy hx
  refine ⟨a, a1, fun c hcc => ?_⟩
  obtain ⟨p, v, v1, v2, v3, v4⟩ := a3 c hcc
  refine ⟨p, v, v1, v2, v3, fun ha => ?_, v4⟩
  obtain ⟨c1, c2, c3, _⟩ := checkResize_ok.1 h.checked
  obtain ⟨work', w1', w2, w3, w4, _, _, w7⟩ := premultiplied_f32 h hch cpu fma fused bits
  obtain ⟨mid', m1', m2, m3⟩ := C87_f32_no_oob (L := L) h cpu fma fused ratOps
  rw [m1] at m1'
  simp only [Option.some.injEq, Prod.mk.injEq, true_and] at m1'
  subst m1'
  have hneed : (alphaX86F32 cpu bits).isNeeded work = true ↔ AlphaVariesF work :=
    C37_alpha_check_f32 (ρ := F32.rnd) c2 c3.1 c3.2.1 (by have := h.small.1; omega) hb.1 hb.2
  have hww : work' = work := w4 (by
    by_contra hx
    exact hc (hneed.1 (by simpa using hx)))
  subst hww
  have hst : mid.strideOf 4 = into.strideOf 4 := sameShape_strideOf m2
  have hv := sameShape_validate m2 c1
  obtain ⟨out', q1, _, _, q4⟩ := unpremultiplyF_spec cpu bits (img := mid) hv (by rw [m2.1]; exact c3.2.2.1)
  have e := withAlpha_compose (L := L) h.checked h.filter h.sizes w1' rfl rfl m1 q1
  rw [o1] at e
  simp only [Option.some.injEq, Prod.mk.injEq, true_and] at e
  subst e
  have q5 := q4 y x c (by rw [m2.2.1]; exact hy) (by rw [m2.1]; exact hx) (by omega)
  rw [hst, v2, pixelVal, if_pos hcc] at q5
  have ea : pxD 0 mid.buffer (into.strideOf 4) 4 y x 3 = 1 := by unfold pxD; rw [a1, ha]; rfl
  have ep : pxD 0 mid.buffer (into.strideOf 4) 4 y x c = p := by unfold pxD; rw [v1]; rfl
  simp only [ea, ep, one_ne_zero, if_false] at q5
  rw [Option.some.inj q5]
  split_ifs
  · rw [div_one]
  · rw [div_one, show F32.rnd 1 = 1 by decide +kernel, mul_one]

/-- **C98 fails**: a flat picture of colour 8 and alpha 1/2 has pixels of colour 8 after a plain resize, which get
colour 16 with `premultiply_alpha = true`. -/
theorem C98_violated :
    ¬ AlphaVariesF (Demo.af (1 / 2)) ∧
    (genericResizeWithAlpha (2 ^ 64) 4 (formatF32X86 ⟨false, false⟩ false false ratOps 4) (alphaX86F32 ⟨false, false⟩ Demo.bits)
      demoLib .bilinear (Demo.af (1 / 2)) Demo.afz false).map (fun q => pixelAt q.2.buffer 10 4 0 1) = some [8, 8, 8, 1 / 2] ∧
    (genericResizeWithAlpha (2 ^ 64) 4 (formatF32X86 ⟨false, false⟩ false false ratOps 4) (alphaX86F32 ⟨false, false⟩ Demo.bits)
      demoLib .bilinear (Demo.af (1 / 2)) Demo.afz true).map (fun q => pixelAt q.2.buffer 10 4 0 1) = some [16, 16, 16, 1 / 2] := by
  refine ⟨?_, by decide +kernel, by decide +kernel⟩
  rintro ⟨y, x, y', x', hy, hx, hy', hx', hne⟩
  have key : ∀ y < 1, ∀ x < 4, pxD 0 (Demo.af (1 / 2)).buffer ((Demo.af (1 / 2)).strideOf 4) 4 y x 3 = 1 / 2 := by decide +kernel
  exact hne ((key y hy x hx).trans (key y' hy' x' hx').symm)

end PicScale
