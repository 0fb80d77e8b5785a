import Verif.Lemmas.Avx512Check
import Verif.Lemmas.X86F32Value
import Verif.Props.AlphaX86Resize
import Verif.Props.Avx512

/-!
Property theorems about RGBA8 alpha handling with AVX-512: C226–C230.
-/

namespace PicScale

open Spec

/-! ### C226: premultiplication -/

/-- **C226.** Premultiplying any RGBA8 image with AVX-512 gives exactly the image that the AVX2 code gives (its
alpha is squared as well, `C66_violated`), and so every colour is within 43/85 of `c * a / 255`. -/
theorem C226_premultiply {cpu : Cpu512} (hr : cpu.Real) {rcp rcp' : ℚ → ℚ} {src dst : Image ℕ}
    (hs : src.validate 4 = .ok ()) (hd : dst.validate 4 = .ok ()) (hw : src.width = dst.width) (hh : src.height = dst.height)
    (hp : 0 < dst.width) :
    (alpha512U8 cpu rcp).premultiply src dst = (alphaX86U8 cpu.base rcp').premultiply src dst := by
  by_cases h5 : cpu.avx512 = true
  · have h2 := hr.avx512 h5
    obtain ⟨a, a1, a2, a3, a4⟩ := premultiplyImageWith_spec
      (alphaChunks_ok (by norm_num) (by norm_num) avx512PremulChunk_pixelwise) hs hd hw hh hp
    obtain ⟨b, b1, b2, b3, b4⟩ := premultiplyImageWith_spec
      (alphaChunks_ok (by norm_num) (by norm_num) avxPremulChunk_pixelwise) hs hd hw hh hp
    unfold alpha512U8 alphaX86U8
    simp only [h5, h2, if_true]
    rw [a1, b1, image_ext a2 b2 a3 b3 fun y x c hy hx hc => by rw [a4 y x c hy hx hc, b4 y x c hy hx hc]]
  · unfold alpha512U8 alphaX86U8
    simp only [h5]
    rfl

/-! ### C227: unpremultiplication -/

/-- **C227.** Unpremultiplying any RGBA8 image with AVX-512, with or without VBMI, gives exactly the image that the
AVX2 code gives if both reciprocal instructions return the same approximations. -/
theorem C227_unpremultiply {cpu : Cpu512} (hr : cpu.Real) {rcp : ℚ → ℚ} {img : Image ℕ} (hd : img.validate 4 = .ok ())
    (hp : 0 < img.width) :
    (alpha512U8 cpu rcp).unpremultiply img = (alphaX86U8 cpu.base rcp).unpremultiply img := by
  by_cases h5 : cpu.avx512 = true
  · have h2 := hr.avx512 h5
    obtain ⟨a, a1, a2, a3, a4⟩ := unpremultiplyImageWith_spec
      (alphaChunksInPlace_ok (by norm_num) (by norm_num) (avx512UnpremulChunk_pixelwise cpu.vbmi rcp)) hd hp
    obtain ⟨b, b1, b2, b3, b4⟩ := unpremultiplyImageWith_spec
      (alphaChunksInPlace_ok (by norm_num) (by norm_num) (avxUnpremulChunk_pixelwise rcp)) hd hp
    unfold alpha512U8 alphaX86U8
    simp only [h5, h2, if_true]
    rw [a1, b1, image_ext a2 b2 a3 b3 fun y x c hy hx hc => by rw [a4 y x c hy hx hc, b4 y x c hy hx hc]]
  · unfold alpha512U8 alphaX86U8
    simp only [h5]
    rfl

example : (alpha512U8 Demo.cpu512 fun n => 1 / n).premultiply Demo.asrc Demo.adst =
      (alphaX86U8 ⟨true, true⟩ fun n => 1 / n).premultiply Demo.asrc Demo.adst ∧
    (alpha512U8 Demo.cpu512 fun n => 1 / n).unpremultiply Demo.apre =
      (alphaX86U8 ⟨true, true⟩ fun n => 1 / n).unpremultiply Demo.apre :=
  ⟨C226_premultiply Demo.cpu512Real.1 (by decide) (by decide) rfl rfl (by decide),
    C227_unpremultiply Demo.cpu512Real.1 (by decide) (by decide)⟩

/-- **C227, values**: what a user gets from unpremultiplication with AVX-512. -/
theorem C227_values_partial {cpu : Cpu512} (hr : cpu.Real) (h5 : cpu.avx512 = true) {rcp : ℚ → ℚ}
    (hi : ReciprocalInstruction rcp) {img : Image ℕ} (hd : img.validate 4 = .ok ()) (hp : 0 < img.width)
    (hb : ∀ v ∈ img.buffer, v ≤ 255) :
    ∃ out, (alpha512U8 cpu rcp).unpremultiply img = some out ∧ SameShape out img ∧ PaddingKept 4 img out ∧
      ∀ y x, y < img.height → x < img.width →
        (∀ c, c < 3 →
          (alphaAt img.buffer (img.strideOf 4) y x ≠ 1 ∨ pxD 0 img.buffer (img.strideOf 4) 4 y x c ≤ 128) →
          ∃ v, sample out.buffer (img.strideOf 4) 4 y x c = some v ∧
            Unpremultiplied (pxD 0 img.buffer (img.strideOf 4) 4 y x c) (alphaAt img.buffer (img.strideOf 4) y x) v) ∧
        sample out.buffer (img.strideOf 4) 4 y x 3 = some (alphaAt img.buffer (img.strideOf 4) y x) := by
  obtain ⟨out, o1, o2, o3, o4⟩ := C62_unpremultiply_partial (cpu := cpu.base) (Or.inl (hr.avx512 h5)) hi hd hp hb
  exact ⟨out, (C227_unpremultiply hr hd hp).trans o1, o2, o3, fun y x hy hx =>
    ⟨fun c hc h => (o4 y x hy hx).1 c hc (Or.inr h), (o4 y x hy hx).2⟩⟩

/-! ### C228: the alpha check -/

/-- **C228.** The AVX-512 check looks at the first `width / 16 * 16` columns only: it says that premultiplication is
needed iff some pixel there differs in alpha from the first pixel (images less than 2^24 pixels wide). -/
theorem C228_check {cpu : Cpu512} (h5 : cpu.avx512 = true) {rcp : ℚ → ℚ} {img : Image ℕ} (hv : img.validate 4 = .ok ())
    (hw : 0 < img.width) (hh : 0 < img.height) (hb : ∀ v ∈ img.buffer, v ≤ 255) (hw' : img.width < 2 ^ 24) :
    (alpha512U8 cpu rcp).isNeeded img = true ↔ ∃ y x, y < img.height ∧ x < img.width / 16 * 16 ∧
      alphaAt img.buffer (img.strideOf 4) y x ≠ alphaAt img.buffer (img.strideOf 4) 0 0 := by
  obtain ⟨hl, hs⟩ := validate_facts hv
  unfold alpha512U8
  simp only [h5, if_true]
  rw [alphaVaries512_eq hs hb]
  rcases Nat.eq_zero_or_pos (img.width / 16 * 16) with h0 | h0
  · rw [h0]
    have : alphaVariesBy plainRowSum img.buffer 0 (img.strideOf 4) = false := by
      unfold alphaVariesBy
      have hne : img.buffer ≠ [] := by
        intro h
        rw [h] at hl
        have := Nat.mul_pos (show 0 < img.strideOf 4 by omega) hh
        simp at hl
        omega
      rw [if_neg hne, List.any_eq_false]
      intro row _
      have : plainRowSum (img.buffer.getD 3 0) (row.take (0 * 4)) = 0 := by
        simp [plainRowSum, alphaSum, i32]
      rw [this]
      decide
    rw [this]
    simp
  · rw [alphaVariesBy_iff (k := 8) (plainRowSum_ok _) hl (by omega) h0 hh (fun v hv => by have := hb v hv; omega)
      (by norm_num; omega)]
    constructor
    · rintro ⟨y, x, y', x', hy, hx, hy', hx', hd⟩
      by_cases h1 : alphaAt img.buffer (img.strideOf 4) y x = alphaAt img.buffer (img.strideOf 4) 0 0
      · exact ⟨y', x', hy', hx', fun h => hd (h1.trans h.symm)⟩
      · exact ⟨y, x, hy, hx, h1⟩
    · rintro ⟨y, x, hy, hx, hd⟩
      exact ⟨y, x, 0, 0, hy, hx, hh, h0, hd⟩

/-- **C228, full rows**: for images whose width is a multiple of 16 the answer is right. -/
theorem C228_check_partial {cpu : Cpu512} (h5 : cpu.avx512 = true) {rcp : ℚ → ℚ} {img : Image ℕ}
    (hv : img.validate 4 = .ok ()) (hw : 0 < img.width) (hh : 0 < img.height) (hb : ∀ v ∈ img.buffer, v ≤ 255)
    (hw' : img.width < 2 ^ 24) (h16 : img.width % 16 = 0) :
    (alpha512U8 cpu rcp).isNeeded img = true ↔ AlphaVaries img := by
  rw [C228_check h5 hv hw hh hb hw', show img.width / 16 * 16 = img.width by omega]
  constructor
  · rintro ⟨y, x, hy, hx, hd⟩
    exact ⟨y, x, 0, 0, hy, hx, hh, hw, hd⟩
  · rintro ⟨y, x, y', x', hy, hx, hy', hx', hd⟩
    by_cases h1 : alphaAt img.buffer (img.strideOf 4) y x = alphaAt img.buffer (img.strideOf 4) 0 0
    · exact ⟨y', x', hy', hx', fun h => hd (h1.trans h.symm)⟩
    · exact ⟨y, x, hy, hx, h1⟩

/-- Sixteen opaque pixels and a row padding that does not count; the last pixel half transparent. -/
def Demo.wide17 (a : ℕ) : Image ℕ :=
  { buffer := (List.replicate 15 [9, 8, 7, 255]).flatten ++ [9, 8, 7, a] ++ [9, 8, 7, 255] ++ [3, 3, 3, 3],
    channels := 4, width := 16, height := 1, stride := 72, bitDepth := 8 }

example : (alpha512U8 Demo.cpu512 fun n => 1 / n).isNeeded (Demo.wide17 128) = true ∧
    (alpha512U8 Demo.cpu512 fun n => 1 / n).isNeeded (Demo.wide17 255) = false := by decide +kernel

example : AlphaVaries (Demo.wide17 128) :=
  (C228_check_partial (cpu := Demo.cpu512) (rcp := fun n => 1 / n) rfl (by decide) (by decide) (by decide) (by decide)
    (by decide) (by decide)).1 (by decide +kernel)

/-- **C228 fails for the other widths**: pixels after the last whole block of 16 are not looked at. In particular
an image narrower than 16 pixels is always taken to have constant alpha. -/
theorem C228_violated {cpu : Cpu512} (h5 : cpu.avx512 = true) {rcp : ℚ → ℚ} {img : Image ℕ}
    (hv : img.validate 4 = .ok ()) (hw : 0 < img.width) (hh : 0 < img.height) (hb : ∀ v ∈ img.buffer, v ≤ 255)
    (hn : img.width < 16) : (alpha512U8 cpu rcp).isNeeded img = false := by
  by_contra h
  obtain ⟨y, x, _, hx, _⟩ := (C228_check h5 hv hw hh hb (by omega)).1 (by simpa using h)
  omega

/-! ### C229: the whole resize -/

theorem alpha512_tail {cpu : Cpu512} (hr : cpu.Real) (ha : cpu.base.avx2 = true) {s : Workload} {rcp : ℚ → ℚ} {W : ℕ}
    {L : Lib} {r : ResamplingFunction} {store into work : Image ℕ} (h : AcceptedCall W 4 r store into)
    (hw1 : work.width = store.width) (hw2 : work.height = store.height) (h' : AcceptedCall W 4 r work into)
    {A : AlphaOps ℕ} (hw : premultiplied W 4 (format512 cpu s 4) A true store into = some work)
    (hA : A.unpremultiply = (alphaX86U8 cpu.base rcp).unpremultiply ∨ A.unpremultiply = (alpha512U8 cpu rcp).unpremultiply) :
    ∃ mid out, genericResize W 4 (format512 cpu s 4) L r work into = some (.ok (), mid) ∧
      (alphaX86U8 cpu.base rcp).unpremultiply mid = some out ∧
      genericResizeWithAlpha W 4 (format512 cpu s 4) A L r store into true = some (.ok (), out) ∧
      SameShape mid into ∧ SameShape out into ∧ PaddingKept 4 into out := by
  obtain ⟨c1, c2, c3, c4, _⟩ := checkResize_ok.1 h.checked
  obtain ⟨mid, m1, m2, m3⟩ := C222_no_oob (L := L) (s := s) hr ha h'
  have hv := sameShape_validate m2 c1
  have hmw : 0 < mid.width := by rw [m2.1]; exact c3.2.2.1
  obtain ⟨out, o1, o2, o3, _⟩ := unpremultiplyImageWith_spec
      (alphaChunksInPlace_ok (by norm_num) (by norm_num) (avxUnpremulChunk_pixelwise rcp)) hv hmw
  have e : (alphaX86U8 cpu.base rcp).unpremultiply mid = some out := by
    unfold alphaX86U8
    simp only [ha, if_true]
    exact o1
  refine ⟨mid, out, m1, e, withAlpha_compose h.checked h.filter h.sizes hw hw1 hw2 m1 ?_, m2, ?_, ?_⟩
  · rcases hA with hA | hA
    · rw [hA]; exact e
    · rw [hA, C227_unpremultiply hr hv hmw]; exact e
  · obtain ⟨a1, a2, a3, a4, a5, a6⟩ := o2
    obtain ⟨b1, b2, b3, b4, b5, b6⟩ := m2
    exact ⟨a1.trans b1, a2.trans b2, a3.trans b3, a4.trans b4, a5.trans b5, a6.trans b6⟩
  · intro p hp
    rw [← m3 p hp]
    apply o3
    rw [sameShape_strideOf m2, m2.1, m2.2.1]
    exact hp

theorem premultiplied_512 {cpu : Cpu512} (hr : cpu.Real) {s : Workload} {rcp : ℚ → ℚ} {W : ℕ} {L : Lib}
    {r : ResamplingFunction} {store into : Image ℕ} (h : AcceptedX86 W 4 L r store into) (hch : store.channels = 4)
    (hn : (alpha512U8 cpu rcp).isNeeded store = (alphaX86U8 cpu.base rcp).isNeeded store) :
    premultiplied W 4 (format512 cpu s 4) (alpha512U8 cpu rcp) true store into =
      premultiplied W 4 (formatX86 cpu.base s 4) (alphaX86U8 cpu.base rcp) true store into := by
  obtain ⟨c1, c2, c3, c4, _⟩ := checkResize_ok.1 h.call.checked
  rw [hch] at c4
  unfold premultiplied
  rw [hn, tempImage_some (fits_of_overflow c4), tempImage_some (fits_of_overflow c4)]
  split_ifs
  · simp only [Option.bind_eq_bind, Option.bind_some]
    rw [C226_premultiply (rcp' := rcp) hr c2 (packed_validate (by rw [List.length_replicate])) rfl rfl c3.1]
    rfl
  · rfl

/-- **C229.** RGBA8 with `premultiply_alpha = true` on a CPU with AVX-512, if the source's alpha is constant or varies
within the first `width / 16 * 16` columns (always, if the width is a multiple of 16): the call returns `Ok`, no
access leaves a buffer, row padding is kept, the result is the plain resize of `work` with its colours divided by its
alpha, and it is exactly what the AVX2 alpha handlers give. -/
theorem C229_alpha_pipeline_partial {cpu : Cpu512} (hr : cpu.Real) (h5 : cpu.avx512 = true) {s : Workload} {rcp : ℚ → ℚ}
    {W : ℕ} {L : Lib} {r : ResamplingFunction} {store into : Image ℕ} (h : AcceptedX86 W 4 L r store into)
    (hch : store.channels = 4)
    (hcols : AlphaVaries store → ∃ y x, y < store.height ∧ x < store.width / 16 * 16 ∧
      alphaAt store.buffer (store.strideOf 4) y x ≠ alphaAt store.buffer (store.strideOf 4) 0 0) :
    ∃ work mid out,
      (¬ AlphaVaries store → work = store) ∧ (AlphaVaries store → PremultipliedCopy false store work) ∧
      genericResize W 4 (format512 cpu s 4) L r work into = some (.ok (), mid) ∧
      (alphaX86U8 cpu.base rcp).unpremultiply mid = some out ∧
      genericResizeWithAlpha W 4 (format512 cpu s 4) (alpha512U8 cpu rcp) L r store into true = some (.ok (), out) ∧
      genericResizeWithAlpha W 4 (format512 cpu s 4) (alphaX86U8 cpu.base rcp) L r store into true = some (.ok (), out) ∧
      SameShape out into ∧ PaddingKept 4 into out := by
  have ha := hr.avx512 h5
  obtain ⟨c1, c2, c3, c4, _⟩ := checkResize_ok.1 h.call.checked
  have hw24 : store.width < 2 ^ 24 := by have := h.call.small.1; omega
  have hn : (alpha512U8 cpu rcp).isNeeded store = (alphaX86U8 cpu.base rcp).isNeeded store := by
    rw [Bool.eq_iff_iff, C228_check h5 c2 c3.1 c3.2.1 h.bytes hw24,
      (C64_alpha_check_partial (cpu := cpu.base) (rcp := rcp) c2 c3.1 c3.2.1).1 h.bytes hw24]
    refine ⟨?_, hcols⟩
    rintro ⟨y, x, hy, hx, hd⟩
    exact ⟨y, x, 0, 0, hy, lt_of_lt_of_le hx (Nat.div_mul_le_self _ _), c3.2.1, c3.1, hd⟩
  obtain ⟨work, w1, w2, w3, w4, w5, w6⟩ := premultiplied_x86 (s := s) (rcp := rcp) (Or.inl ha) h hch
  obtain ⟨mid, out, m1, m2, m3, _, m5, m6⟩ := alpha512_tail (L := L) (s := s) (rcp := rcp) hr ha h.call w2 w3 w6.call
    ((premultiplied_512 hr h hch hn).trans w1) (Or.inr rfl)
  obtain ⟨mid', out', n1, n2, n3, _⟩ := alpha512_tail (L := L) (s := s) (rcp := rcp) (A := alphaX86U8 cpu.base rcp) hr ha
    h.call w2 w3 w6.call w1 (Or.inl rfl)
  rw [m1] at n1
  obtain rfl := (Prod.mk.inj (Option.some.inj n1)).2
  rw [m2] at n2
  obtain rfl := Option.some.inj n2
  exact ⟨work, mid, out, w4, by rw [ha] at w5; exact w5, m1, m2, m3, n3, m5, m6⟩

/-- **C229 fails for narrow images**: whatever its alpha, an RGBA8 image narrower than 16 pixels is not premultiplied
with AVX-512 but the resized colours are divided by the resized alpha all the same. -/
theorem C229_violated_narrow {cpu : Cpu512} (hr : cpu.Real) (h5 : cpu.avx512 = true) {s : Workload} {rcp : ℚ → ℚ}
    {W : ℕ} {L : Lib} {r : ResamplingFunction} {store into : Image ℕ} (h : AcceptedX86 W 4 L r store into)
    (hnarrow : store.width < 16) :
    ∃ plain out, genericResizeWithAlpha W 4 (format512 cpu s 4) (alpha512U8 cpu rcp) L r store into false =
        some (.ok (), plain) ∧
      (alphaX86U8 cpu.base rcp).unpremultiply plain = some out ∧ SameShape plain into ∧
      genericResizeWithAlpha W 4 (format512 cpu s 4) (alpha512U8 cpu rcp) L r store into true = some (.ok (), out) := by
  obtain ⟨c1, c2, c3, c4, _⟩ := checkResize_ok.1 h.call.checked
  have hn := C228_violated (cpu := cpu) (rcp := rcp) h5 c2 c3.1 c3.2.1 h.bytes hnarrow
  obtain ⟨mid, out, m1, m2, m3, m4, _⟩ := alpha512_tail (L := L) (s := s) (rcp := rcp) (A := alpha512U8 cpu rcp) hr (hr.avx512 h5)
    h.call rfl rfl h.call (work := store) (by unfold premultiplied; rw [hn]; simp) (Or.inr rfl)
  exact ⟨mid, out, withAlpha_false.trans m1, m2, m4, m3⟩

/-- Two grey pixels of different alpha, one above the other. -/
def Demo.narrowSrc : Image ℕ :=
  { buffer := [100, 100, 100, 128, 100, 100, 100, 64], channels := 4, width := 1, height := 2, stride := 4, bitDepth := 8 }
def Demo.narrowDst : Image ℕ :=
  { buffer := List.replicate 16 0, channels := 4, width := 2, height := 2, stride := 8, bitDepth := 8 }

theorem Demo.acceptedX86_n : AcceptedX86 (2 ^ 64) 4 demoLib .bilinear Demo.narrowSrc Demo.narrowDst :=
  Demo.acceptedX86_of (by constructor <;> decide +kernel) (by decide) (by decide +kernel) (by decide +kernel)

/-- Grey 100 comes out as 199 where alpha is 128 (AVX-512), whatever the reciprocal instruction returns; the same
call without premultiplication gives 100. -/
theorem C229_violated {rcp : ℚ → ℚ} (hi : ReciprocalInstruction rcp) :
    AlphaVaries Demo.narrowSrc ∧ ∃ plain out,
      genericResizeWithAlpha (2 ^ 64) 4 (format512 Demo.cpu512 .preferQuality 4) (alpha512U8 Demo.cpu512 rcp) demoLib
        .bilinear Demo.narrowSrc Demo.narrowDst false = some (.ok (), plain) ∧
      genericResizeWithAlpha (2 ^ 64) 4 (format512 Demo.cpu512 .preferQuality 4) (alpha512U8 Demo.cpu512 rcp) demoLib
        .bilinear Demo.narrowSrc Demo.narrowDst true = some (.ok (), out) ∧
      sample plain.buffer 8 4 0 0 0 = some 100 ∧ sample plain.buffer 8 4 0 0 3 = some 128 ∧
      sample out.buffer 8 4 0 0 0 = some 199 := by
  refine ⟨⟨0, 0, 1, 0, by decide, by decide, by decide, by decide, by decide⟩, ?_⟩
  obtain ⟨plain, out, p1, p2, p3, p4⟩ := C229_violated_narrow (rcp := rcp) (s := .preferQuality) Demo.cpu512Real.1 rfl
    Demo.acceptedX86_n (by decide)
  have hp : (genericResize (2 ^ 64) 4 (format512 Demo.cpu512 .preferQuality 4) demoLib .bilinear Demo.narrowSrc Demo.narrowDst).map
      (fun p => (sample p.2.buffer 8 4 0 0 0, sample p.2.buffer 8 4 0 0 3, p.2.buffer.all (· ≤ 255))) =
      some (some 100, some 128, true) := by decide +kernel
  have p1' := p1
  rw [withAlpha_false] at p1'
  rw [p1'] at hp
  simp only [Option.map_some, Option.some.injEq, Prod.mk.injEq] at hp
  obtain ⟨e1, e2, e3⟩ := hp
  have hd : Demo.narrowDst.strideOf 4 = 8 := by decide
  have hst : plain.strideOf 4 = 8 := (sameShape_strideOf p3).trans hd
  obtain ⟨out', o1, _, _, o4⟩ := unpremultiply_x86 (cpu := ⟨true, true⟩) (rcp := rcp) (img := plain) (by decide) hi
    (sameShape_validate p3 (by decide)) (by rw [p3.1]; decide)
    (fun y x c _ _ _ => pxD_le255' (by simpa using e3) y x c)
  have : out' = out := by
    have := p2.symm.trans o1
    exact (Option.some.inj this).symm
  subst this
  refine ⟨plain, out', p1, p4, e1, e2, ?_⟩
  obtain ⟨v, v1, v2, _⟩ := (o4 0 0 (by rw [p3.2.1]; decide) (by rw [p3.1]; decide)).1 0 (by decide)
  rw [hst] at v1 v2
  have ep : pxD 0 plain.buffer 8 4 0 0 0 = 100 := by simp only [pxD, e1, Option.getD_some]
  have ea : alphaAt plain.buffer 8 0 0 = 128 := by simp only [alphaAt, pxD, e2, Option.getD_some]
  rw [ep, ea] at v2
  have hu := (v2 (by right; left; decide)).2.2 (by decide)
  norm_num [abs_le] at hu
  rw [v1]
  have h1 : (198 : ℚ) < v := by linarith
  have h2 : (v : ℚ) < 200 := by linarith
  have h1 : 198 < v := by exact_mod_cast h1
  have h2 : v < 200 := by exact_mod_cast h2
  congr 1; omega

example : ∃ out, genericResizeWithAlpha (2 ^ 64) 4 (format512 Demo.cpu512 .preferSpeed 4)
    (alpha512U8 Demo.cpu512 fun n => 1 / n) demoLib .bilinear Demo.csrc Demo.cdst true = some (.ok (), out) ∧
    PaddingKept 4 Demo.cdst out := by
  have hc : ¬ AlphaVaries Demo.csrc := by
    rintro ⟨y, x, y', x', hy, hx, hy', hx', hd⟩
    exact hd ((by decide : ∀ y, y < Demo.csrc.height → ∀ x, x < Demo.csrc.width → ∀ y', y' < Demo.csrc.height →
      ∀ x', x' < Demo.csrc.width → alphaAt Demo.csrc.buffer (Demo.csrc.strideOf 4) y x =
        alphaAt Demo.csrc.buffer (Demo.csrc.strideOf 4) y' x') y hy x hx y' hy' x' hx')
  obtain ⟨_, _, out, _, _, _, _, o, _, _, o'⟩ := C229_alpha_pipeline_partial (rcp := fun n => 1 / n) (s := .preferSpeed)
    Demo.cpu512Real.1 rfl Demo.acceptedX86_c rfl (fun h => absurd h hc)
  exact ⟨out, o, o'⟩

end PicScale
