import Verif.Lemmas.AlphaCompose
import Verif.Props.AlphaX86

/-!
Property theorems about RGBA8 resizes with alpha on x86: C63, C65.
-/

namespace PicScale

open Spec

/-! ### C63: the whole call -/

/-- The first step: the premultiplied copy. -/
theorem premultiplied_x86 {cpu : Cpu} {s : Workload} {rcp : ℚ → ℚ} {W : ℕ} {L : Lib} {r : ResamplingFunction}
    {store into : Image ℕ} (hcpu : cpu.avx2 = true ∨ cpu.sse41 = true) (h : AcceptedX86 W 4 L r store into)
    (hch : store.channels = 4) :
    ∃ work, premultiplied W 4 (formatX86 cpu s 4) (alphaX86U8 cpu rcp) true store into = some work ∧
      work.width = store.width ∧ work.height = store.height ∧
      (¬ AlphaVaries store → work = store) ∧ (AlphaVaries store → PremultipliedCopy (!cpu.avx2) store work) ∧
      AcceptedX86 W 4 L r work into := by
  obtain ⟨c1, c2, c3, c4, _⟩ := checkResize_ok.1 h.call.checked
  rw [hch] at c4
  have hfit := fits_of_overflow c4
  have hneed := (C64_alpha_check_partial (cpu := cpu) (rcp := rcp) c2 c3.1 c3.2.1).1 h.bytes
    (by have := h.call.small.1; omega)
  unfold premultiplied
  by_cases hn : (alphaX86U8 cpu rcp).isNeeded store = true
  · rw [if_pos ⟨rfl, hn⟩, tempImage_some hfit]
    simp only [Option.bind_eq_bind, Option.bind_some]
    obtain ⟨t, t1, t2, _, t4⟩ := C61_premultiply (cpu := cpu) (rcp := rcp) (src := store)
        (dst := ⟨List.replicate (store.width * store.height * 4) (formatX86 cpu s 4).default, 4, store.width, store.height,
          store.width * 4, into.bitDepth⟩) hcpu c2 (packed_validate (by rw [List.length_replicate])) rfl rfl c3.1 h.bytes
    rw [t1]
    simp only [Option.bind_some]
    obtain ⟨_, _, _, _, _, tl⟩ := t2
    simp only [List.length_replicate] at tl
    simp only [packed_strideOf] at t4
    have hcopy : PremultipliedCopy (!cpu.avx2) store
        (Image.mk t.buffer 4 store.width store.height (store.width * 4) into.bitDepth) := by
      refine ⟨rfl, rfl, fun y x hy hx => ?_⟩
      rw [packed_strideOf]
      obtain ⟨a1, a', a2, a3, a4⟩ := t4 y x hy hx
      have ea : alphaAt t.buffer (store.width * 4) y x = a' := by
        simp only [alphaAt, pxD, a2, Option.getD_some]
      refine ⟨fun c hc => ?_, fun hk => ?_, fun hk => ?_⟩
      · obtain ⟨v, v1, v2⟩ := a1 c hc
        have : pxD 0 t.buffer (store.width * 4) 4 y x c = v := by simp only [pxD, v1, Option.getD_some]
        rw [this]
        exact v2
      · rw [ea]; exact a3 (by simpa using hk)
      · rw [ea]; exact a4 (by simpa using hk)
    refine ⟨_, rfl, rfl, rfl, fun hv => absurd (hneed.1 hn) hv, fun _ => hcopy, ?_, ?_, ?_⟩
    · exact ⟨h.call.channels, check_packed h.call.checked hch tl, h.call.filter, h.call.sizes, h.call.small, h.call.area,
        h.call.fits⟩
    · intro v hv
      obtain ⟨i, hi, rfl⟩ := List.getElem_of_mem hv
      simp only at hi
      obtain ⟨y, x, c, hy, hx, hc, rfl⟩ := packed_pixel (N := 4) (by omega) c3.1 (tl ▸ hi)
      obtain ⟨_, _, hp⟩ := hcopy
      obtain ⟨p1, p2, p3⟩ := hp y x hy hx
      rw [packed_strideOf] at p1 p2 p3
      have e : ∀ d, pxD 0 t.buffer (store.width * 4) 4 y x d = t.buffer.getD (y * (store.width * 4) + x * 4 + d) 0 := by
        intro d; simp [pxD, sample]
      have e' : t.buffer[y * (store.width * 4) + x * 4 + c] = pxD 0 t.buffer (store.width * 4) 4 y x c := by
        rw [e, List.getD_eq_getElem?_getD, List.getElem?_eq_getElem hi, Option.getD_some]
      show t.buffer[y * (store.width * 4) + x * 4 + c] ≤ 255
      rw [e']
      have ha : alphaAt store.buffer (store.strideOf 4) y x ≤ 255 := pxD_le255' h.bytes y x 3
      by_cases hc3 : c < 3
      · exact ((C61_extremes (p1 c hc3)).2.2 ha).trans (pxD_le255' h.bytes y x c)
      · have : c = 3 := by omega
        subst this
        show alphaAt t.buffer (store.width * 4) y x ≤ 255
        cases ha2 : cpu.avx2
        · rw [p2 (by rw [ha2]; rfl)]; exact ha
        · exact ((C61_extremes (p3 (by rw [ha2]; rfl))).2.2 ha).trans ha
    · exact h.noOverflow
  · rw [if_neg (by tauto)]
    exact ⟨store, rfl, rfl, rfl, fun _ => rfl, fun hv => absurd (hneed.2 hv) hn, h⟩

/-- Every sample of a resized image is a byte. -/
theorem x86_bytes {cpu : Cpu} {s : Workload} {W N : ℕ} {L : Lib} {r : ResamplingFunction} {store into out : Image ℕ}
    (h : AcceptedX86 W N L r store into) (hc : CpuFits cpu s N store into)
    (ho : genericResize W N (formatX86 cpu s N) L r store into = some (.ok (), out)) :
    ∀ y x c, y < into.height → x < into.width → c < N → pxD 0 out.buffer (into.strideOf N) N y x c ≤ 255 := by
  obtain ⟨_, _, out', _, _, _, _, _, _, o1, _, _, o4⟩ := x86_values h hc
  rw [ho] at o1
  simp only [Option.some.injEq, Prod.mk.injEq, true_and] at o1
  subst o1
  intro y x c hy hx hcN
  unfold pxD
  rw [o4 y x c hy hx hcN, Option.getD_some]
  unfold sepAbs
  dsimp only
  split_ifs
  · exact pxD_byte h.bytes N c _ _
  · exact VKernel.value_le _ _ _ _ _ _
  · exact HKernel.value_le _ _ _ _ _ _
  · exact HKernel.value_le _ _ _ _ _ _

/-- **C63.** RGBA8 with `premultiply_alpha = true` on x86: the call returns `Ok`, no access leaves a buffer, row
padding is kept, and the result is the plain resize of `work` with its colours divided by its alpha, where `work`
is the source if its alpha is constant and a premultiplied copy otherwise (with AVX2 the copy's alpha is squared,
`C66_violated`; with AVX2 a resized colour above 128 with resized alpha 1 comes out as 0, `C62_violated`). -/
theorem C63_alpha_pipeline_partial {cpu : Cpu} {s : Workload} {rcp : ℚ → ℚ} {W : ℕ} {L : Lib} {r : ResamplingFunction}
    {store into : Image ℕ} (hcpu : cpu.avx2 = true ∨ cpu.sse41 = true) (hr : ReciprocalInstruction rcp)
    (h : AcceptedX86 W 4 L r store into) (hc : CpuFits cpu s 4 store into) (hch : store.channels = 4) :
    ∃ work mid out,
      (¬ AlphaVaries store → work = store) ∧ (AlphaVaries store → PremultipliedCopy (!cpu.avx2) store work) ∧
      AcceptedX86 W 4 L r work into ∧
      genericResize W 4 (formatX86 cpu s 4) L r work into = some (.ok (), mid) ∧
      genericResizeWithAlpha W 4 (formatX86 cpu s 4) (alphaX86U8 cpu rcp) L r store into true = some (.ok (), out) ∧
      SameShape out into ∧ PaddingKept 4 into out ∧
      ∀ y x, y < into.height → x < into.width → ∃ a, a ≤ 255 ∧ sample mid.buffer (into.strideOf 4) 4 y x 3 = some a ∧
        sample out.buffer (into.strideOf 4) 4 y x 3 = some a ∧
        ∀ c, c < 3 → ∃ p v, p ≤ 255 ∧ sample mid.buffer (into.strideOf 4) 4 y x c = some p ∧
          sample out.buffer (into.strideOf 4) 4 y x c = some v ∧
          (cpu.avx2 = false ∨ a ≠ 1 ∨ p ≤ 128 → Unpremultiplied p a v) ∧ (cpu.avx2 = true → a = 1 → 128 < p → v = 0) := by
  obtain ⟨work, w1, w2, w3, w4, w5, w6⟩ := premultiplied_x86 (s := s) (rcp := rcp) hcpu h hch
  have hc' : CpuFits cpu s 4 work into := by unfold CpuFits; rw [w2]; exact hc
  obtain ⟨mid, m1, m2, m3⟩ := C52_no_oob (L := L) w6.call hc'
  have hmb := x86_bytes w6 hc' m1
  obtain ⟨c1, c2, c3, c4, _⟩ := checkResize_ok.1 h.call.checked
  have hst : mid.strideOf 4 = into.strideOf 4 := sameShape_strideOf m2
  have hmw : mid.width = into.width := m2.1
  have hmh : mid.height = into.height := m2.2.1
  have hv := sameShape_validate m2 c1
  obtain ⟨out, o1, o2, o3, o4⟩ := unpremultiply_x86 (cpu := cpu) (img := mid) hcpu hr hv (by rw [hmw]; exact c3.2.2.1)
    (by rw [hst, hmw, hmh]; exact hmb)
  rw [hst, hmw, hmh] at o4
  refine ⟨work, mid, out, w4, w5, w6, m1, withAlpha_compose h.call.checked h.call.filter h.call.sizes w1 w2 w3 m1 o1, ?_, ?_, ?_⟩
  · obtain ⟨a1, a2, a3, a4, a5, a6⟩ := o2
    obtain ⟨b1, b2, b3, b4, b5, b6⟩ := m2
    exact ⟨a1.trans b1, a2.trans b2, a3.trans b3, a4.trans b4, a5.trans b5, a6.trans b6⟩
  · intro p hp
    rw [← m3 p hp]
    apply o3
    rw [hst, hmw, hmh]
    exact hp
  · intro y x hy hx
    have hsamp : ∀ c, c < 4 → sample mid.buffer (into.strideOf 4) 4 y x c = some (pxD 0 mid.buffer (into.strideOf 4) 4 y x c) := by
      intro c hcc
      obtain ⟨hl, hs⟩ := validate_facts hv
      rw [hst, hmh] at hl
      rw [hst, hmw] at hs
      unfold pxD sample
      rw [List.getElem?_eq_getElem, Option.getD_some]
      rw [hl]
      have : (y + 1) * into.strideOf 4 ≤ into.height * into.strideOf 4 := Nat.mul_le_mul_right _ (by omega)
      rw [Nat.succ_mul] at this
      have hcomm : into.strideOf 4 * into.height = into.height * into.strideOf 4 := Nat.mul_comm _ _
      omega
    obtain ⟨p1, p2⟩ := o4 y x hy hx
    refine ⟨_, hmb y x 3 hy hx (by omega), hsamp 3 (by omega), p2, fun c hcc => ?_⟩
    obtain ⟨v, v1, v2, v3⟩ := p1 c hcc
    refine ⟨_, v, hmb y x c hy hx (by omega), hsamp c (by omega), v1, v2, fun q1 q2 q3 => v3 ?_⟩
    rintro (q | q | q)
    · rw [q1] at q; exact absurd q (by decide)
    · exact q q2
    · omega

/-- Any 2-pixel-high or -wide RGBA demo call as an accepted x86 call. -/
theorem Demo.acceptedX86_of {src dst : Image ℕ} (h0 : AcceptedCall (2 ^ 64) 4 .bilinear src dst) (h1 : ∀ v ∈ src.buffer, v ≤ 255)
    (h6 : ((tableOf demoLib .bilinear src.height dst.height).map fun t => decide (t.kernelSize ≤ 128)) = some true)
    (h7 : ((tableOf demoLib .bilinear src.width dst.width).map fun t => decide (t.kernelSize ≤ 128)) = some true) :
    AcceptedX86 (2 ^ 64) 4 demoLib .bilinear src dst := by
  obtain ⟨c1, c2, c3, _⟩ := checkResize_ok.1 h0.checked
  refine ⟨h0, h1, ?_, ?_⟩
  · intro q hq
    refine accumFits_of_taps c3.2.1 h0.small.2 (by simp) hq ?_
    obtain ⟨fw, e, rfl⟩ := hq
    rw [e] at h6
    simp only [Option.map_some, Option.some.injEq, decide_eq_true_eq] at h6
    exact h6
  · intro q hq
    refine accumFits_of_taps c3.1 h0.small.1 (by simp) hq ?_
    obtain ⟨fw, e, rfl⟩ := hq
    rw [e] at h7
    simp only [Option.map_some, Option.some.injEq, decide_eq_true_eq] at h7
    exact h7

theorem Demo.acceptedX86_v : AcceptedX86 (2 ^ 64) 4 demoLib .bilinear Demo.avsrc Demo.avdst :=
  Demo.acceptedX86_of (by constructor <;> decide +kernel) (by decide) (by decide +kernel) (by decide +kernel)

theorem Demo.acceptedX86_c : AcceptedX86 (2 ^ 64) 4 demoLib .bilinear Demo.csrc Demo.cdst :=
  Demo.acceptedX86_of (by constructor <;> decide +kernel) (by decide) (by decide +kernel) (by decide +kernel)

example : ∃ out, genericResizeWithAlpha (2 ^ 64) 4 (formatX86 ⟨true, true⟩ .preferSpeed 4) (alphaX86U8 ⟨true, true⟩ fun n => 1 / n)
    demoLib .bilinear Demo.avsrc Demo.avdst true = some (.ok (), out) ∧ PaddingKept 4 Demo.avdst out := by
  obtain ⟨_, _, out, _, _, _, _, h, _, h', _⟩ := C63_alpha_pipeline_partial (cpu := ⟨true, true⟩) (s := .preferSpeed) (by decide)
    exact_reciprocal Demo.acceptedX86_v (Or.inr (Or.inr (Or.inl rfl))) rfl
  exact ⟨out, h, h'⟩

theorem Demo.acceptedX86_f : AcceptedX86 (2 ^ 64) 4 demoLib .bilinear Demo.aone Demo.cdst :=
  Demo.acceptedX86_of (by constructor <;> decide +kernel) (by decide) (by decide +kernel) (by decide +kernel)

/-- **C63 fails for constant alpha**: a flat image of constant alpha is not premultiplied but is unpremultiplied.
Colour 200 with alpha 1 becomes 0 with AVX2 and 255 with SSE4.1; the plain resize keeps it. -/
theorem C63_violated {rcp : ℚ → ℚ} (hr : ReciprocalInstruction rcp) :
    (∃ plain, genericResize (2 ^ 64) 4 (formatX86 ⟨true, true⟩ .preferQuality 4) demoLib .bilinear Demo.aone Demo.cdst =
      some (.ok (), plain) ∧ sample plain.buffer 8 4 0 0 0 = some 200 ∧ sample plain.buffer 8 4 0 0 3 = some 1) ∧
    (∃ avx, genericResizeWithAlpha (2 ^ 64) 4 (formatX86 ⟨true, true⟩ .preferQuality 4) (alphaX86U8 ⟨true, true⟩ rcp) demoLib
      .bilinear Demo.aone Demo.cdst true = some (.ok (), avx) ∧ sample avx.buffer 8 4 0 0 0 = some 0) ∧
    (∃ sse, genericResizeWithAlpha (2 ^ 64) 4 (formatX86 ⟨true, false⟩ .preferQuality 4) (alphaX86U8 ⟨true, false⟩ rcp) demoLib
      .bilinear Demo.aone Demo.cdst true = some (.ok (), sse) ∧ sample sse.buffer 8 4 0 0 0 = some 255) := by
  have hd : Demo.cdst.strideOf 4 = 8 := by decide
  have hcv : ¬ AlphaVaries Demo.aone := by
    rintro ⟨y, x, y', x', hy, hx, hy', hx', hne⟩
    have e : ∀ n, n < Demo.aone.height → n = 0 := by intro n hn; have : n < 1 := hn; omega
    have e' : ∀ n, n < Demo.aone.width → n = 0 := by intro n hn; have : n < 1 := hn; omega
    rw [e y hy, e y' hy', e' x hx, e' x' hx'] at hne
    exact hne rfl
  have plain : ∀ b, (genericResize (2 ^ 64) 4 (formatX86 ⟨true, b⟩ .preferQuality 4) demoLib .bilinear Demo.aone Demo.cdst).map
      (fun p => (sample p.2.buffer 8 4 0 0 0, sample p.2.buffer 8 4 0 0 3)) = some (some 200, some 1) := by
    intro b; cases b <;> decide +kernel
  have key : ∀ b, ∃ plain out, genericResize (2 ^ 64) 4 (formatX86 ⟨true, b⟩ .preferQuality 4) demoLib .bilinear Demo.aone Demo.cdst =
      some (.ok (), plain) ∧ sample plain.buffer 8 4 0 0 0 = some 200 ∧ sample plain.buffer 8 4 0 0 3 = some 1 ∧
      genericResizeWithAlpha (2 ^ 64) 4 (formatX86 ⟨true, b⟩ .preferQuality 4) (alphaX86U8 ⟨true, b⟩ rcp) demoLib
        .bilinear Demo.aone Demo.cdst true = some (.ok (), out) ∧
      ∃ v, sample out.buffer 8 4 0 0 0 = some v ∧ (b = false → Unpremultiplied 200 1 v) ∧ (b = true → v = 0) := by
    intro b
    obtain ⟨work, mid, out, w1, _, _, m1, o1, _, _, o4⟩ := C63_alpha_pipeline_partial (cpu := ⟨true, b⟩) (s := .preferQuality)
      (Or.inr rfl) hr Demo.acceptedX86_f (Or.inr (Or.inl rfl)) rfl
    rw [w1 hcv] at m1
    have hp := plain b
    rw [m1] at hp
    simp only [Option.map_some, Option.some.injEq, Prod.mk.injEq] at hp
    obtain ⟨a, _, a2, _, a4⟩ := o4 0 0 (by decide) (by decide)
    rw [hd] at a2 a4
    rw [hp.2] at a2
    obtain rfl := Option.some.inj a2
    obtain ⟨p, v, _, p2, p3, p4, p5⟩ := a4 0 (by decide)
    rw [hp.1] at p2
    obtain rfl := Option.some.inj p2
    exact ⟨mid, out, m1, hp.1, hp.2, o1, v, p3, fun hb => p4 (Or.inl hb), fun hb => p5 hb rfl (by norm_num)⟩
  obtain ⟨pl, avx, k1, k2, k3, k4, v, v1, _, v2⟩ := key true
  obtain ⟨_, sse, _, _, _, q4, u, u1, u2, _⟩ := key false
  refine ⟨⟨pl, k1, k2, k3⟩, ⟨avx, k4, by rw [v1, v2 rfl]⟩, ⟨sse, q4, ?_⟩⟩
  rw [u1]
  have hu := (u2 rfl).2.2 (by decide)
  norm_num [abs_le] at hu
  have h1 : (254 : ℚ) < u := by linarith
  have h2 : (u : ℚ) < 256 := by linarith
  have h1 : 254 < u := by exact_mod_cast h1
  have h2 : u < 256 := by exact_mod_cast h2
  congr 1; omega

/-! ### C65: the round trip -/

theorem round_trip_value {c a p v : ℕ} (hc : c ≤ 255) (ha : 1 ≤ a) (hp : Premultiplied c a p) (hv : Unpremultiplied p a v) :
    |(v : ℚ) - c| ≤ 129 / a + 3 / 5 := by
  have haq : (0 : ℚ) < a := by exact_mod_cast ha
  have hcq : (c : ℚ) ≤ 255 := by exact_mod_cast hc
  have h2 := hv.2.2 (by omega)
  unfold Premultiplied at hp
  have key : |min (255 : ℚ) (255 * (p : ℚ) / a) - c| ≤ 129 / a := by
    have e : (255 * (p : ℚ) / a) - c = (255 / a) * (p - c * a / 255) := by field_simp
    have h3 : |(255 * (p : ℚ) / a) - c| ≤ 129 / a := by
      rw [e, abs_mul, abs_of_nonneg (by positivity)]
      calc 255 / (a : ℚ) * |(p : ℚ) - c * a / 255| ≤ 255 / a * (43 / 85) := by gcongr
        _ = 129 / a := by ring
    rcases le_total (255 : ℚ) (255 * (p : ℚ) / a) with h | h
    · rw [min_eq_left h, abs_of_nonneg (by linarith)]
      rw [abs_le] at h3
      linarith
    · rw [min_eq_right h]; exact h3
  calc |(v : ℚ) - c| = |((v : ℚ) - min (255 : ℚ) (255 * (p : ℚ) / a)) + (min (255 : ℚ) (255 * (p : ℚ) / a) - c)| := by congr 1; ring
    _ ≤ _ := abs_add_le _ _
    _ ≤ 129 / a + 3 / 5 := by linarith

/-- **C65.** With SSE4.1, premultiplying any RGBA8 image into any image of the same size and unpremultiplying that
returns every alpha exactly, every colour to within `129 / a + 3/5` levels (an opaque pixel exactly), and zero
colours where alpha is zero. (For AVX2, where alpha is not kept, see `C65_violated`.) -/
theorem C65_round_trip_partial {rcp : ℚ → ℚ} {src dst : Image ℕ} (hr : ReciprocalInstruction rcp)
    (hs : src.validate 4 = .ok ()) (hd : dst.validate 4 = .ok ())
    (hw : src.width = dst.width) (hh : src.height = dst.height) (hp : 0 < dst.width)
    (hb : ∀ v ∈ src.buffer, v ≤ 255) :
    ∃ pre out, (alphaX86U8 ⟨true, false⟩ rcp).premultiply src dst = some pre ∧
      (alphaX86U8 ⟨true, false⟩ rcp).unpremultiply pre = some out ∧ SameShape out dst ∧ PaddingKept 4 dst out ∧
      ∀ y x, y < dst.height → x < dst.width →
        sample out.buffer (dst.strideOf 4) 4 y x 3 = some (alphaAt src.buffer (src.strideOf 4) y x) ∧
        ∀ c, c < 3 → ∃ v, sample out.buffer (dst.strideOf 4) 4 y x c = some v ∧
          (alphaAt src.buffer (src.strideOf 4) y x = 0 → v = 0) ∧
          (alphaAt src.buffer (src.strideOf 4) y x = 255 → v = pxD 0 src.buffer (src.strideOf 4) 4 y x c) ∧
          (alphaAt src.buffer (src.strideOf 4) y x ≠ 0 →
            |(v : ℚ) - (pxD 0 src.buffer (src.strideOf 4) 4 y x c : ℕ)| ≤
              129 / ((alphaAt src.buffer (src.strideOf 4) y x : ℕ) : ℚ) + 3 / 5) := by
  obtain ⟨pre, p1, p2, p3, p4⟩ := C61_premultiply (cpu := ⟨true, false⟩) (rcp := rcp) (Or.inr rfl) hs hd hw hh hp hb
  have hst : pre.strideOf 4 = dst.strideOf 4 := sameShape_strideOf p2
  have hpw : pre.width = dst.width := p2.1
  have hph : pre.height = dst.height := p2.2.1
  have hpx : ∀ y x c v, sample pre.buffer (dst.strideOf 4) 4 y x c = some v → pxD 0 pre.buffer (dst.strideOf 4) 4 y x c = v := by
    intro y x c v h; unfold pxD; rw [h, Option.getD_some]
  have hle : ∀ y x, alphaAt src.buffer (src.strideOf 4) y x ≤ 255 := fun y x => pxD_le255' hb y x 3
  have hal : ∀ y x, y < dst.height → x < dst.width → alphaAt pre.buffer (dst.strideOf 4) y x = alphaAt src.buffer (src.strideOf 4) y x := by
    intro y x hy hx
    obtain ⟨_, a', a1, a2, _⟩ := p4 y x hy hx
    rw [← a2 rfl]
    exact hpx _ _ _ _ a1
  obtain ⟨out, o1, o2, o3, o4⟩ := unpremultiply_x86 (cpu := ⟨true, false⟩) (rcp := rcp) (img := pre) (Or.inr rfl) hr
    (sameShape_validate p2 hd) (by rw [hpw]; exact hp) (by
      rw [hst, hpw, hph]
      intro y x c hy hx hc
      by_cases h3 : c < 3
      · obtain ⟨v, v1, v2⟩ := (p4 y x hy hx).1 c h3
        rw [hpx _ _ _ _ v1]
        exact ((C61_extremes v2).2.2 (hle y x)).trans (pxD_le255' hb y x c)
      · have : c = 3 := by omega
        subst this
        have := hal y x hy hx
        unfold alphaAt at this
        rw [this]
        exact hle y x)
  rw [hst, hpw, hph] at o4
  refine ⟨pre, out, p1, o1, ?_, ?_, ?_⟩
  · obtain ⟨a1, a2, a3, a4, a5, a6⟩ := o2
    obtain ⟨b1, b2, b3, b4, b5, b6⟩ := p2
    exact ⟨a1.trans b1, a2.trans b2, a3.trans b3, a4.trans b4, a5.trans b5, a6.trans b6⟩
  · intro i hi
    rw [← p3 i hi]
    apply o3
    rw [hst, hpw, hph]
    exact hi
  · intro y x hy hx
    obtain ⟨u1, u2⟩ := o4 y x hy hx
    rw [hal y x hy hx] at u2
    refine ⟨u2, fun c hc => ?_⟩
    obtain ⟨v, v1, v2, _⟩ := u1 c hc
    obtain ⟨w, w1, w2⟩ := (p4 y x hy hx).1 c hc
    rw [hpx _ _ _ _ w1, hal y x hy hx] at v2
    have v2 := v2 (Or.inl rfl)
    refine ⟨v, v1, v2.1, fun h => ?_, fun h => round_trip_value (pxD_le255' hb y x c) (by omega) w2 v2⟩
    rw [v2.2.1 h, (C61_extremes w2).2.1 h]

example : ∃ pre out, (alphaX86U8 ⟨true, false⟩ fun n => 1 / n).premultiply Demo.asrc Demo.adst = some pre ∧
    (alphaX86U8 ⟨true, false⟩ fun n => 1 / n).unpremultiply pre = some out := by
  obtain ⟨pre, out, h, h', _⟩ := C65_round_trip_partial (src := Demo.asrc) (dst := Demo.adst) exact_reciprocal (by decide) (by decide)
    rfl rfl (by decide) (by decide)
  exact ⟨pre, out, h, h'⟩

/-- An image with colour 100 and alpha 100. -/
def Demo.a100 : Image ℕ :=
  { buffer := [100, 0, 0, 100], channels := 4, width := 1, height := 1, stride := 4, bitDepth := 8 }

/-- Its premultiplied form on AVX2. -/
def Demo.a39 : Image ℕ :=
  { buffer := [39, 0, 0, 39], channels := 4, width := 1, height := 1, stride := 4, bitDepth := 8 }

/-- **C65 fails with AVX2**: colour 100 with alpha 100 comes back as colour 255 (it should be within 2 levels of 100)
and alpha 39: premultiplication squares alpha, so the colour is divided by less than it was multiplied by. -/
theorem C65_violated {rcp : ℚ → ℚ} (hr : ReciprocalInstruction rcp) :
    ∃ pre out, (alphaX86U8 ⟨true, true⟩ rcp).premultiply Demo.a100 Demo.a100 = some pre ∧
      (alphaX86U8 ⟨true, true⟩ rcp).unpremultiply pre = some out ∧
      sample out.buffer 4 4 0 0 0 = some 255 ∧ sample out.buffer 4 4 0 0 3 = some 39 := by
  have hpre : (alphaX86U8 ⟨true, true⟩ rcp).premultiply Demo.a100 Demo.a100 = some Demo.a39 := by
    show premultiplyImageWith _ _ _ = _
    decide +kernel
  have hst : Demo.a39.strideOf 4 = 4 := by decide
  obtain ⟨out, o1, o2, o3, o4⟩ := unpremultiply_x86 (cpu := ⟨true, true⟩) (rcp := rcp) (img := Demo.a39) (Or.inr rfl) hr
    (by decide) (by decide) (fun y x c _ _ _ => pxD_le255' (by decide) y x c)
  obtain ⟨u1, u2⟩ := o4 0 0 (by decide) (by decide)
  obtain ⟨v, v1, v2, _⟩ := u1 0 (by decide)
  rw [hst] at v1 u2
  refine ⟨_, out, hpre, o1, ?_, u2⟩
  rw [v1]
  have hv := (v2 (Or.inr (Or.inl (by decide)))).2.2 (by decide)
  have e1 : pxD 0 Demo.a39.buffer (Demo.a39.strideOf 4) 4 0 0 0 = 39 := by decide
  have e2 : alphaAt Demo.a39.buffer (Demo.a39.strideOf 4) 0 0 = 39 := by decide
  rw [e1, e2] at hv
  norm_num [abs_le] at hv
  have h1 : (254 : ℚ) < v := by linarith
  have h2 : (v : ℚ) < 256 := by linarith
  have h1 : 254 < v := by exact_mod_cast h1
  have h2 : v < 256 := by exact_mod_cast h2
  congr 1; omega

end PicScale
