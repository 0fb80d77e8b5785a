import Verif.Lemmas.Colors
import Verif.Props.AlphaF32Resize
import Verif.Props.AlphaX86Resize
import Verif.Props.Store

/-!
Property theorems about the colour-space scalers: C99–C107.
-/

namespace PicScale

open Spec

/-- An x86 `Scaler` with resampling function `r`: `u8` images as in `Model/X86.lean`, `f32` images as in
`Model/X86F32.lean`. -/
def x86Scaler (cpu : Cpu) (s : Workload) (fma fused : Bool) (rcp : ℚ → ℚ) (bits : ℚ → ℕ) (W : ℕ) (L : Lib)
    (r : ResamplingFunction) : InnerScaler ℕ ℚ :=
  innerScaler W L r (formatX86 cpu s) (alphaX86U8 cpu rcp) (formatF32X86 cpu fma fused ratOps) (alphaX86F32 cpu bits)

/-- Every conversion of the library maps a pixel to a pixel with as many samples. -/
structure ColorLib.Lawful {A B T : Type} (K : ColorLib A B T) : Prop where
  linear : ∀ t, KeepsLength 3 (K.rgbToLinear t) ∧ KeepsLength 3 (K.linearToRgb t)
  linearA : ∀ t, KeepsLength 4 (K.rgbaToLinear t) ∧ KeepsLength 4 (K.linearToRgba t)
  linear8 : ∀ t, KeepsLength 3 (K.rgbToLinear8 t) ∧ KeepsLength 3 (K.linear8ToRgb t)
  linear8A : ∀ t, KeepsLength 4 (K.rgbaToLinear8 t) ∧ KeepsLength 4 (K.linear8ToRgba t)
  lab : KeepsLength 3 K.rgbToLab ∧ KeepsLength 3 K.labToRgb
  labA : KeepsLength 4 K.rgbaToLab ∧ KeepsLength 4 K.labToRgba
  luv : KeepsLength 3 K.rgbToLuv ∧ KeepsLength 3 K.luvToRgb
  luvA : KeepsLength 4 K.rgbaToLuv ∧ KeepsLength 4 K.luvToRgba
  lch : KeepsLength 3 K.rgbToLch ∧ KeepsLength 3 K.lchToRgb
  lchA : KeepsLength 4 K.rgbaToLch ∧ KeepsLength 4 K.lchToRgba
  oklab : ∀ t, KeepsLength 3 (K.rgbToOklab t) ∧ KeepsLength 3 (K.oklabToRgb t)
  oklabA : ∀ t, KeepsLength 4 (K.rgbaToOklab t) ∧ KeepsLength 4 (K.oklabToRgba t)
  jzazbz : ∀ l t, KeepsLength 3 (K.rgbToJzazbz l t) ∧ KeepsLength 3 (K.jzazbzToRgb l t)
  jzazbzA : ∀ l t, KeepsLength 4 (K.rgbaToJzazbz l t) ∧ KeepsLength 4 (K.jzazbzToRgba l t)
  sigmoidal : KeepsLength 3 K.rgbToSigmoidal ∧ KeepsLength 3 K.sigmoidalToRgb
  sigmoidalA : KeepsLength 4 K.rgbaToSigmoidal ∧ KeepsLength 4 K.sigmoidalToRgba
  xyz : KeepsLength 3 K.rgbToXyz ∧ KeepsLength 3 K.xyzToRgb
  xyzA : KeepsLength 4 K.rgbaToXyz ∧ KeepsLength 4 K.xyzToRgba

/-- An accepted call of a colour scaler on pictures of `N` channels: an accepted resize whose rows fit `u32` when
stored as 4-byte samples. -/
structure AcceptedColor (W N : ℕ) (r : ResamplingFunction) (store into : Image ℕ) : Prop where
  call : AcceptedF W N r store into
  channels : store.channels = N
  rows : store.width * N * 4 < 2 ^ 32 ∧ into.width * N * 4 < 2 ^ 32
  height : into.height < 2 ^ 32

/-- The picture has no row padding. -/
def Unpadded (N : ℕ) (img : Image ℕ) : Prop := img.stride = img.width * N

theorem Unpadded.eq {N : ℕ} {img : Image ℕ} (h : Unpadded N img) : unpadded N img = img := by
  unfold unpadded
  rw [← h]

theorem AcceptedColor.fits {W N : ℕ} {B : Type} {r : ResamplingFunction} {store into : Image ℕ} (h : AcceptedColor W N r store into)
    {C : ColorSpace ℕ B} (he : KeepsLength N C.enc) (hd : KeepsLength N C.dec) (hs : C.sizeOf = 4 ∨ C.sizeOf = 1) :
    ColorFits N C store into := by
  have h1 := h.rows
  refine ⟨h.channels, h.call.channels.1, he, hd, by omega, ⟨?_, by have := h.call.small; omega⟩, ?_, h.height⟩
  · rcases hs with e | e <;> rw [e] <;> omega
  · rcases hs with e | e <;> rw [e] <;> omega

/-- The inner call is accepted. -/
theorem AcceptedColor.inner {W N : ℕ} {B : Type} {r : ResamplingFunction} {store into : Image ℕ} (h : AcceptedColor W N r store into)
    {C : ColorSpace ℕ B} (hf : ColorFits N C store into) :
    AcceptedF W N r (encoded N C store into) (Image.alloc N C.default into.width into.height) :=
  ⟨h.call.channels, encoded_check hf h.call.checked, h.call.filter, h.call.sizes, h.call.small, h.call.area, h.call.fits⟩

/-- RGBA f32 resizes succeed with either setting of `premultiply_alpha`. -/
theorem rgbaF32_ok {W : ℕ} {L : Lib} {r : ResamplingFunction} {store into : Image ℚ}
    (h : AcceptedF W 4 r store into) (hch : store.channels = 4) (cpu : Cpu) (fma fused : Bool) (bits : ℚ → ℕ) (p : Bool) :
    ∃ out, genericResizeWithAlpha W 4 (formatF32X86 cpu fma fused ratOps 4) (alphaX86F32 cpu bits) L r store into p =
        some (.ok (), out) ∧ SameShape out into := by
  cases p with
  | false =>
    obtain ⟨out, h1, h2, _⟩ := C87_f32_no_oob (L := L) h cpu fma fused ratOps
    exact ⟨out, withAlpha_false.trans h1, h2⟩
  | true =>
    obtain ⟨work, w1, w2, w3, _, _, _, w7⟩ := premultiplied_f32 h hch cpu fma fused bits
    obtain ⟨mid, m1, m2, m3⟩ := C87_f32_no_oob (L := L) w7 cpu fma fused ratOps
    obtain ⟨c1, c2, c3, _⟩ := checkResize_ok.1 h.checked
    obtain ⟨out, o1, o2, _⟩ := unpremultiplyF_spec cpu bits (img := mid) (sameShape_validate m2 c1)
      (by rw [m2.1]; exact c3.2.2.1)
    obtain ⟨a1, a2, a3, a4, a5, a6⟩ := o2
    obtain ⟨b1, b2, b3, b4, b5, b6⟩ := m2
    exact ⟨out, withAlpha_compose h.checked h.filter h.sizes w1 w2 w3 m1 o1,
      a1.trans b1, a2.trans b2, a3.trans b3, a4.trans b4, a5.trans b5, a6.trans b6⟩

theorem padding_of_unpadded {N : ℕ} {S : Type} {into out : Image S} (hN : 1 ≤ N) (hw : 1 ≤ into.width)
    (hst : into.stride = into.width * N)
    (h : ∀ p, into.width * N * into.height ≤ p → out.buffer[p]? = into.buffer[p]?) : PaddingKept N into out := by
  intro p hp
  apply h
  by_contra hlt
  obtain ⟨y, x, c, hy, hx, hc, rfl⟩ := packed_pixel (N := N) (w := into.width) (h := into.height) (i := p) hN hw (by
    calc p < into.width * N * into.height := by omega
      _ = into.width * into.height * N := by ring)
  apply hp
  have e : into.strideOf N = into.width * N := by
    unfold Image.strideOf
    rw [hst]
    split_ifs <;> rfl
  rw [e]
  exact ⟨y, x, c, hy, hx, hc, rfl⟩

/-- One method of a scaler on images without row padding. -/
theorem resizesVia_of {W N : ℕ} {B : Type} {r : ResamplingFunction} {C : ColorSpace ℕ B}
    {inner : Image B → Image B → Option (Except Err Unit × Image B)} {store into : Image ℕ} (h : AcceptedColor W N r store into)
    (hf : ColorFits N C store into) (hs : Unpadded N store) (hd : Unpadded N into)
    (hi : ∃ work, inner (encoded N C store into) (Image.alloc N C.default into.width into.height) = some (.ok (), work) ∧
      SameShape work (Image.alloc N C.default into.width into.height)) :
    ResizesVia N C.enc C.dec inner (colorResize W N C inner) C.default
      (if C.depthFromSource then store.bitDepth else into.bitDepth) store into := by
  obtain ⟨work, w1, w2⟩ := hi
  obtain ⟨out, o1, o2, o3, o4⟩ := colorResize_run hf h.call.checked h.call.sizes w1 w2
  obtain ⟨_, _, c3, _⟩ := checkResize_ok.1 h.call.checked
  refine ⟨work, out, ?_, o1, o2, padding_of_unpadded h.call.channels.1 c3.2.2.1 hd o4, ?_⟩
  · unfold encoded at w1
    rw [hs.eq] at w1
    exact w1
  · have e : into.strideOf N = into.width * N := by
      unfold Image.strideOf
      rw [hd]
      split_ifs <;> rfl
    rw [e]
    exact o3

section Call
variable {W : ℕ} {L : Lib} {r : ResamplingFunction} {T : Type} {K : ColorLib ℕ ℚ T} {store into : Image ℕ} {cpu : Cpu}
  {s : Workload} {fma fused : Bool} {rcp : ℚ → ℚ} {bits : ℚ → ℕ}

theorem via_rgb (h : AcceptedColor W 3 r store into) (hs : Unpadded 3 store) (hd : Unpadded 3 into) {C C' : ColorSpace ℕ ℚ}
    (hC : KeepsLength 3 C.enc ∧ KeepsLength 3 C.dec) (h4 : C.sizeOf = 4) :
    ResizesVia 3 C.enc C.dec (x86Scaler cpu s fma fused rcp bits W L r).rgbF32
      (f32Scaler W (x86Scaler cpu s fma fused rcp bits W L r) C C').resizeRgb C.default
      (if C.depthFromSource then store.bitDepth else into.bitDepth) store into := by
  have hf := h.fits hC.1 hC.2 (Or.inl h4)
  obtain ⟨work, w1, w2, _⟩ := C87_f32_no_oob (L := L) (h.inner hf) cpu fma fused ratOps
  exact resizesVia_of h hf hs hd ⟨work, w1, w2⟩

theorem via_rgba (h : AcceptedColor W 4 r store into) (hs : Unpadded 4 store) (hd : Unpadded 4 into) {C C' : ColorSpace ℕ ℚ}
    (hC : KeepsLength 4 C.enc ∧ KeepsLength 4 C.dec) (h4 : C.sizeOf = 4) (p : Bool) :
    ResizesVia 4 C.enc C.dec (fun a b => (x86Scaler cpu s fma fused rcp bits W L r).rgbaF32 a b p)
      (fun a b => (f32Scaler W (x86Scaler cpu s fma fused rcp bits W L r) C' C).resizeRgba a b p) C.default
      (if C.depthFromSource then store.bitDepth else into.bitDepth) store into := by
  have hf := h.fits hC.1 hC.2 (Or.inl h4)
  obtain ⟨work, w1, w2⟩ := rgbaF32_ok (L := L) (h.inner hf) rfl cpu fma fused bits p
  exact resizesVia_of h hf hs hd ⟨work, w1, w2⟩

/-! ### C99: what the scalers compute -/

/-- **C99 (RGB).** `resize_rgb` of the Lab, Luv, LCh, sigmoidal and XYZ scalers: convert every pixel to the colour
space, resize with the ordinary f32 resize, convert every pixel back. -/
theorem C99_rgb (hK : K.Lawful) (h : AcceptedColor W 3 r store into) (hs : Unpadded 3 store) (hd : Unpadded 3 into) :
    let S := x86Scaler cpu s fma fused rcp bits W L r
    ResizesVia 3 K.rgbToLab K.labToRgb S.rgbF32 (labScaler W K S 0).resizeRgb 0 into.bitDepth store into ∧
    ResizesVia 3 K.rgbToLuv K.luvToRgb S.rgbF32 (luvScaler W K S 0).resizeRgb 0 into.bitDepth store into ∧
    ResizesVia 3 K.rgbToLch K.lchToRgb S.rgbF32 (lchScaler W K S 0).resizeRgb 0 into.bitDepth store into ∧
    ResizesVia 3 K.rgbToSigmoidal K.sigmoidalToRgb S.rgbF32 (sigmoidalScaler W K S 0).resizeRgb 0 into.bitDepth store into ∧
    ResizesVia 3 K.rgbToXyz K.xyzToRgb S.rgbF32 (xyzScaler W K S 0).resizeRgb 0 into.bitDepth store into :=
  ⟨via_rgb h hs hd (C := ⟨0, 4, K.rgbToLab, K.labToRgb, false⟩) hK.lab rfl,
    via_rgb h hs hd (C := ⟨0, 4, K.rgbToLuv, K.luvToRgb, false⟩) hK.luv rfl,
    via_rgb h hs hd (C := ⟨0, 4, K.rgbToLch, K.lchToRgb, false⟩) hK.lch rfl,
    via_rgb h hs hd (C := ⟨0, 4, K.rgbToSigmoidal, K.sigmoidalToRgb, false⟩) hK.sigmoidal rfl,
    via_rgb h hs hd (C := ⟨0, 4, K.rgbToXyz, K.xyzToRgb, false⟩) hK.xyz rfl⟩

/-- **C99 (RGBA).** The same for `resize_rgba`, with and without premultiplication; the inner resize is the f32 resize
with the same setting. -/
theorem C99_rgba (hK : K.Lawful) (h : AcceptedColor W 4 r store into) (hs : Unpadded 4 store) (hd : Unpadded 4 into)
    (p : Bool) :
    let S := x86Scaler cpu s fma fused rcp bits W L r
    ResizesVia 4 K.rgbaToLab K.labToRgba (S.rgbaF32 · · p) ((labScaler W K S 0).resizeRgba · · p) 0 store.bitDepth store into ∧
    ResizesVia 4 K.rgbaToLuv K.luvToRgba (S.rgbaF32 · · p) ((luvScaler W K S 0).resizeRgba · · p) 0 into.bitDepth store into ∧
    ResizesVia 4 K.rgbaToLch K.lchToRgba (S.rgbaF32 · · p) ((lchScaler W K S 0).resizeRgba · · p) 0 store.bitDepth store into ∧
    ResizesVia 4 K.rgbaToSigmoidal K.sigmoidalToRgba (S.rgbaF32 · · p) ((sigmoidalScaler W K S 0).resizeRgba · · p) 0 into.bitDepth
      store into ∧
    ResizesVia 4 K.rgbaToXyz K.xyzToRgba (S.rgbaF32 · · p) ((xyzScaler W K S 0).resizeRgba · · p) 0 into.bitDepth store into :=
  ⟨via_rgba h hs hd (C := ⟨0, 4, K.rgbaToLab, K.labToRgba, true⟩) hK.labA rfl p,
    via_rgba h hs hd (C := ⟨0, 4, K.rgbaToLuv, K.luvToRgba, false⟩) hK.luvA rfl p,
    via_rgba h hs hd (C := ⟨0, 4, K.rgbaToLch, K.lchToRgba, true⟩) hK.lchA rfl p,
    via_rgba h hs hd (C := ⟨0, 4, K.rgbaToSigmoidal, K.sigmoidalToRgba, false⟩) hK.sigmoidalA rfl p,
    via_rgba h hs hd (C := ⟨0, 4, K.rgbaToXyz, K.xyzToRgba, false⟩) hK.xyzA rfl p⟩

/-! ### C100: transfer functions -/

/-- **C100.** The linear (RGB), Oklab and Jzazbz (RGB and RGBA) scalers convert in both directions with the transfer
function (and display luminance) they were created with. -/
theorem C100_transfer_function (hK : K.Lawful) (t : T) (lum : ℕ) :
    let S := x86Scaler cpu s fma fused rcp bits W L r
    (AcceptedColor W 3 r store into → Unpadded 3 store → Unpadded 3 into →
      ResizesVia 3 (K.rgbToLinear t) (K.linearToRgb t) S.rgbF32 (linearScaler W K S 0 t).resizeRgb 0 into.bitDepth store into ∧
      ResizesVia 3 (K.rgbToOklab t) (K.oklabToRgb t) S.rgbF32 (oklabScaler W K S 0 t).resizeRgb 0 into.bitDepth store into ∧
      ResizesVia 3 (K.rgbToJzazbz lum t) (K.jzazbzToRgb lum t) S.rgbF32 (jzazbzScaler W K S 0 lum t).resizeRgb 0 into.bitDepth store into) ∧
    (AcceptedColor W 4 r store into → Unpadded 4 store → Unpadded 4 into → ∀ p,
      ResizesVia 4 (K.rgbaToOklab t) (K.oklabToRgba t) (S.rgbaF32 · · p) ((oklabScaler W K S 0 t).resizeRgba · · p) 0 into.bitDepth
        store into ∧
      ResizesVia 4 (K.rgbaToJzazbz lum t) (K.jzazbzToRgba lum t) (S.rgbaF32 · · p)
        ((jzazbzScaler W K S 0 lum t).resizeRgba · · p) 0 store.bitDepth store into) :=
  ⟨fun h hs hd =>
    ⟨via_rgb h hs hd (C := ⟨0, 4, K.rgbToLinear t, K.linearToRgb t, false⟩) (hK.linear t) rfl,
      via_rgb h hs hd (C := ⟨0, 4, K.rgbToOklab t, K.oklabToRgb t, false⟩) (hK.oklab t) rfl,
      via_rgb h hs hd (C := ⟨0, 4, K.rgbToJzazbz lum t, K.jzazbzToRgb lum t, false⟩) (hK.jzazbz lum t) rfl⟩,
   fun h hs hd p =>
    ⟨via_rgba h hs hd (C := ⟨0, 4, K.rgbaToOklab t, K.oklabToRgba t, false⟩) (hK.oklabA t) rfl p,
      via_rgba h hs hd (C := ⟨0, 4, K.rgbaToJzazbz lum t, K.jzazbzToRgba lum t, true⟩) (hK.jzazbzA lum t) rfl p⟩⟩

theorem AcceptedColor.u8 {N : ℕ} (h : AcceptedColor W N r store into) {C : ColorSpace ℕ ℕ} (hf : ColorFits N C store into) :
    AcceptedCall W N r (encoded N C store into) (Image.alloc N C.default into.width into.height) :=
  ⟨h.call.channels, encoded_check hf h.call.checked, h.call.filter, h.call.sizes, h.call.small, h.call.area, h.call.fits⟩

/-- **C100 (8-bit linear).** The approximate linear scaler works on 8-bit linear values, with its transfer function in
both directions; RGBA where the plain 8-bit resize runs on this CPU (`C57_supported_iff`). -/
theorem C100_linear_approx (hK : K.Lawful) (t : T) :
    let S := x86Scaler cpu s fma fused rcp bits W L r
    (AcceptedColor W 3 r store into → Unpadded 3 store → Unpadded 3 into →
      ResizesVia 3 (K.rgbToLinear8 t) (K.linear8ToRgb t) S.rgb8 (linearApproxScaler W K S 0 t).resizeRgb 0 into.bitDepth store into) ∧
    (AcceptedColor W 4 r store into → Unpadded 4 store → Unpadded 4 into → CpuFits cpu s 4 store into →
      ResizesVia 4 (K.rgbaToLinear8 t) (K.linear8ToRgba t) (S.rgba8 · · false)
        ((linearApproxScaler W K S 0 t).resizeRgba · · false) 0 into.bitDepth store into) := by
  constructor
  · intro h hs hd
    have hf : ColorFits 3 ⟨0, 1, K.rgbToLinear8 t, K.linear8ToRgb t, false⟩ store into :=
      h.fits (hK.linear8 t).1 (hK.linear8 t).2 (Or.inr rfl)
    obtain ⟨work, w1, w2, _⟩ := C52_no_oob (L := L) (s := s) (h.u8 hf) (cpu := cpu) (Or.inl (by omega))
    exact resizesVia_of h hf hs hd ⟨work, w1, w2⟩
  · intro h hs hd hc
    have hf : ColorFits 4 ⟨0, 1, K.rgbaToLinear8 t, K.linear8ToRgba t, false⟩ store into :=
      h.fits (hK.linear8A t).1 (hK.linear8A t).2 (Or.inr rfl)
    obtain ⟨work, w1, w2, _⟩ := C52_no_oob (L := L) (s := s) (h.u8 hf) (cpu := cpu) hc
    exact resizesVia_of h hf hs hd ⟨work, withAlpha_false.trans w1, w2⟩

/-! ### C101: the linear RGBA scaler -/

/-- **C101 (partial).** `LinearScaler::resize_rgba` should use the transfer function the scaler was created with. It uses
sRGB (`C101_violated`); proved: the result is that of a linear-light resize with sRGB, so it is right for `t = srgb`. -/
theorem C101_linear_rgba_partial (hK : K.Lawful) (t : T) (h : AcceptedColor W 4 r store into) (hs : Unpadded 4 store)
    (hd : Unpadded 4 into) (p : Bool) :
    let S := x86Scaler cpu s fma fused rcp bits W L r
    ResizesVia 4 (K.rgbaToLinear K.srgb) (K.linearToRgba K.srgb) (S.rgbaF32 · · p)
      ((linearScaler W K S 0 t).resizeRgba · · p) 0 into.bitDepth store into :=
  via_rgba h hs hd (C := ⟨0, 4, K.rgbaToLinear K.srgb, K.linearToRgba K.srgb, false⟩) (hK.linearA K.srgb) rfl p

end Call

namespace Demo

/-- Sample-wise conversions for examples: the "transfer function" is the factor a sample is multiplied with. -/
def up (k : ℕ) (p : List ℕ) : List ℚ := p.map fun n => (n * k : ℚ)
def down (k : ℕ) (p : List ℚ) : List ℕ := p.map fun q => (Rat.floor (q / k)).toNat
def up8 (k : ℕ) (p : List ℕ) : List ℕ := p.map fun n => min (n * k) 255
def down8 (k : ℕ) (p : List ℕ) : List ℕ := p.map fun n => n / k

/-- A colour library with these conversions. -/
def lib : ColorLib ℕ ℚ ℕ where
  srgb := 1
  rgbToLinear := up
  linearToRgb := down
  rgbaToLinear := fun k p => p.map fun n => (n * n * k : ℚ)
  linearToRgba := fun k p => p.map fun q => if k = 1 then (Rat.floor q).toNat else (Rat.floor q).toNat / 100
  rgbToLinear8 := up8
  linear8ToRgb := down8
  rgbaToLinear8 := up8
  linear8ToRgba := down8
  rgbToLab := up 1
  labToRgb := down 1
  rgbaToLab := up 1
  labToRgba := down 1
  rgbToLuv := up 2
  luvToRgb := down 2
  rgbaToLuv := up 2
  luvToRgba := down 2
  rgbToLch := up 3
  lchToRgb := down 3
  rgbaToLch := up 3
  lchToRgba := down 3
  rgbToOklab := up
  oklabToRgb := down
  rgbaToOklab := up
  oklabToRgba := down
  rgbToJzazbz := fun l t => up (l * t)
  jzazbzToRgb := fun l t => down (l * t)
  rgbaToJzazbz := fun l t => up (l * t)
  jzazbzToRgba := fun l t => down (l * t)
  rgbToSigmoidal := up 5
  sigmoidalToRgb := down 5
  rgbaToSigmoidal := up 5
  sigmoidalToRgba := down 5
  rgbToXyz := up 7
  xyzToRgb := down 7
  rgbaToXyz := up 7
  xyzToRgba := down 7

theorem lib_lawful : lib.Lawful := by
  constructor <;> (try intro _) <;> (try intro _) <;>
    exact ⟨fun p hp => by simpa [lib, up, up8] using hp, fun p hp => by simpa [lib, down, down8] using hp⟩

/-- 2 × 2 pixels of `N` channels, row padding `pad`; the padding contains 99. -/
def cimg (N pad : ℕ) : Image ℕ :=
  { buffer := (List.range 2).flatMap fun y => ((List.range (2 * N)).map fun _ => 10 + y) ++ List.replicate pad 99,
    channels := N, width := 2, height := 2, stride := 2 * N + pad, bitDepth := 8 }
/-- A 2 × 1 destination. -/
def cout (N pad : ℕ) : Image ℕ :=
  { buffer := List.replicate (2 * N + pad) 7, channels := N, width := 2, height := 1, stride := 2 * N + pad, bitDepth := 8 }

theorem ccall3 : AcceptedColor (2 ^ 64) 3 .bilinear (cimg 3 0) (cout 3 0) :=
  ⟨by constructor <;> decide +kernel, rfl, by decide, by decide⟩
theorem ccall4 : AcceptedColor (2 ^ 64) 4 .bilinear (cimg 4 0) (cout 4 0) :=
  ⟨by constructor <;> decide +kernel, rfl, by decide, by decide⟩

def cx : InnerScaler ℕ ℚ :=
  x86Scaler ⟨true, true⟩ .preferSpeed true true (fun n => 1 / n) (fun _ => 0) (2 ^ 64) demoLib .bilinear

end Demo

example : ResizesVia 3 (Demo.up 1) (Demo.down 1) Demo.cx.rgbF32 (labScaler (2 ^ 64) Demo.lib Demo.cx 0).resizeRgb 0 8
    (Demo.cimg 3 0) (Demo.cout 3 0) := (C99_rgb Demo.lib_lawful Demo.ccall3 rfl rfl).1
example : ResizesVia 4 (Demo.up 7) (Demo.down 7) (Demo.cx.rgbaF32 · · true)
    ((xyzScaler (2 ^ 64) Demo.lib Demo.cx 0).resizeRgba · · true) 0 8 (Demo.cimg 4 0) (Demo.cout 4 0) :=
  (C99_rgba Demo.lib_lawful Demo.ccall4 rfl rfl true).2.2.2.2
example : ResizesVia 3 (Demo.up 2) (Demo.down 2) Demo.cx.rgbF32 (linearScaler (2 ^ 64) Demo.lib Demo.cx 0 2).resizeRgb 0 8
    (Demo.cimg 3 0) (Demo.cout 3 0) := ((C100_transfer_function Demo.lib_lawful 2 0).1 Demo.ccall3 rfl rfl).1
example : ResizesVia 4 (Demo.up8 2) (Demo.down8 2) (Demo.cx.rgba8 · · false)
    ((linearApproxScaler (2 ^ 64) Demo.lib Demo.cx 0 2).resizeRgba · · false) 0 8 (Demo.cimg 4 0) (Demo.cout 4 0) :=
  (C100_linear_approx Demo.lib_lawful 2).2 Demo.ccall4 rfl rfl (Or.inr (Or.inr (Or.inl rfl)))

example : ResizesVia 4 (Demo.lib.rgbaToLinear 1) (Demo.lib.linearToRgba 1) (Demo.cx.rgbaF32 · · true)
    ((linearScaler (2 ^ 64) Demo.lib Demo.cx 0 2).resizeRgba · · true) 0 8 (Demo.cimg 4 0) (Demo.cout 4 0) :=
  C101_linear_rgba_partial Demo.lib_lawful 2 Demo.ccall4 rfl rfl true

/-- **C101 fails**: `LinearScaler::resize_rgba` gives the same result for every transfer function, also for a library
where the transfer functions 1 and 2 give different results. -/
theorem C101_violated :
    (∀ {T : Type} (K : ColorLib ℕ ℚ T) (S : InnerScaler ℕ ℚ) (t t' : T) (store into : Image ℕ) (p : Bool),
      (linearScaler (2 ^ 64) K S 0 t).resizeRgba store into p = (linearScaler (2 ^ 64) K S 0 t').resizeRgba store into p) ∧
    ¬ ResizesVia 4 (Demo.lib.rgbaToLinear 2) (Demo.lib.linearToRgba 2) (Demo.cx.rgbaF32 · · false)
      ((linearScaler (2 ^ 64) Demo.lib Demo.cx 0 2).resizeRgba · · false) 0 8 (Demo.cimg 4 0) (Demo.cout 4 0) := by
  refine ⟨fun _ _ _ _ _ _ _ => rfl, ?_⟩
  rintro ⟨work, out, h1, h2, _, _, h5⟩
  have hd : (Demo.cx.rgbaF32 (mapPicture 4 (Demo.lib.rgbaToLinear 2) (Demo.cimg 4 0) 8)
      (Image.alloc 4 0 (Demo.cout 4 0).width (Demo.cout 4 0).height) false).map
        (fun q => Demo.lib.linearToRgba 2 (pixelAt q.2.buffer 8 4 0 0)) = some [2, 2, 2, 2] := by decide +kernel
  have ho : ((linearScaler (2 ^ 64) Demo.lib Demo.cx 0 2).resizeRgba (Demo.cimg 4 0) (Demo.cout 4 0) false).map
      (fun q => pixelAt q.2.buffer 8 4 0 0) = some [110, 110, 110, 110] := by decide +kernel
  dsimp only at h1 h2
  have h6 := h5 0 0 (by decide) (by decide)
  rw [h1] at hd
  rw [h2] at ho
  simp only [Option.map_some, Option.some.injEq] at hd ho
  have h7 : [110, 110, 110, 110] = [2, 2, 2, 2] := by rw [← ho, ← hd]; exact h6
  exact absurd h7 (by decide)


/-! ### C102: row padding -/

section Padding
variable {W : ℕ} {L : Lib} {r : ResamplingFunction} {store into : Image ℕ} {cpu : Cpu} {s : Workload} {fma fused : Bool}
  {rcp : ℚ → ℚ} {bits : ℚ → ℕ}

/-- **C102 (partial).** The colour scalers should honour row padding as the ordinary scaler does. They do not
(`C102_violated`): whatever the strides, rows are taken to follow each other without padding, in the source and in the
destination. Proved for every colour space: the call succeeds, reads and writes stay inside the buffers, and the result
is that of the unpadded reading of both buffers; with no padding that is the right one (C99). -/
theorem C102_padding_partial {C C' : ColorSpace ℕ ℚ} (h : AcceptedColor W 3 r store into)
    (hC : KeepsLength 3 C.enc ∧ KeepsLength 3 C.dec) (h4 : C.sizeOf = 4) :
    let S := x86Scaler cpu s fma fused rcp bits W L r
    ∃ depth work out,
      S.rgbF32 (mapPicture 3 C.enc (unpadded 3 store) depth) (Image.alloc 3 C.default into.width into.height) =
        some (.ok (), work) ∧
      (f32Scaler W S C C').resizeRgb store into = some (.ok (), out) ∧ SameShape out into ∧
      (∀ y x, y < into.height → x < into.width →
        pixelAt out.buffer (into.width * 3) 3 y x = C.dec (pixelAt work.buffer (into.width * 3) 3 y x)) ∧
      (∀ p, into.width * 3 * into.height ≤ p → out.buffer[p]? = into.buffer[p]?) := by
  have hf := h.fits hC.1 hC.2 (Or.inl h4)
  obtain ⟨work, w1, w2, _⟩ := C87_f32_no_oob (L := L) (h.inner hf) cpu fma fused ratOps
  obtain ⟨out, o1, o2, o3, o4⟩ := colorResize_run (inner := (x86Scaler cpu s fma fused rcp bits W L r).rgbF32)
    hf h.call.checked h.call.sizes w1 w2
  exact ⟨_, work, out, w1, o1, o2, o3, o4⟩

/-- **C102 (partial), RGBA.** -/
theorem C102_padding_rgba_partial {C C' : ColorSpace ℕ ℚ} (h : AcceptedColor W 4 r store into)
    (hC : KeepsLength 4 C.enc ∧ KeepsLength 4 C.dec) (h4 : C.sizeOf = 4) (p : Bool) :
    let S := x86Scaler cpu s fma fused rcp bits W L r
    ∃ depth work out,
      S.rgbaF32 (mapPicture 4 C.enc (unpadded 4 store) depth) (Image.alloc 4 C.default into.width into.height) p =
        some (.ok (), work) ∧
      (f32Scaler W S C' C).resizeRgba store into p = some (.ok (), out) ∧ SameShape out into ∧
      (∀ y x, y < into.height → x < into.width →
        pixelAt out.buffer (into.width * 4) 4 y x = C.dec (pixelAt work.buffer (into.width * 4) 4 y x)) ∧
      (∀ p, into.width * 4 * into.height ≤ p → out.buffer[p]? = into.buffer[p]?) := by
  have hf := h.fits hC.1 hC.2 (Or.inl h4)
  obtain ⟨work, w1, w2⟩ := rgbaF32_ok (L := L) (h.inner hf) rfl cpu fma fused bits p
  obtain ⟨out, o1, o2, o3, o4⟩ := colorResize_run
    (inner := fun a b => (x86Scaler cpu s fma fused rcp bits W L r).rgbaF32 a b p) hf h.call.checked h.call.sizes w1 w2
  exact ⟨_, work, out, w1, o1, o2, o3, o4⟩

end Padding

namespace Demo
/-- 2 × 4 pixels of colour `v`, two elements of padding per row. -/
def flat (v : ℕ) : Image ℕ :=
  { buffer := (List.range 4).flatMap fun _ => List.replicate 6 v ++ [99, 99], channels := 3, width := 2, height := 4, stride := 8,
    bitDepth := 8 }
/-- A 2 × 2 destination, two elements of padding per row. -/
def flatOut : Image ℕ :=
  { buffer := List.replicate 16 7, channels := 3, width := 2, height := 2, stride := 8, bitDepth := 8 }
theorem flatCall : AcceptedColor (2 ^ 64) 3 .bilinear (flat 10) flatOut :=
  ⟨by constructor <;> decide +kernel, rfl, by decide, by decide⟩
end Demo

example : ∃ out, (labScaler (2 ^ 64) Demo.lib Demo.cx 0).resizeRgb (Demo.flat 10) Demo.flatOut = some (.ok (), out) ∧
    out.buffer[12]? = some 7 := by
  obtain ⟨_, _, out, _, h, _, _, h'⟩ := C102_padding_partial (L := demoLib) (cpu := ⟨true, true⟩) (s := .preferSpeed) (fma := true)
    (fused := true) (rcp := fun n => 1 / n) (bits := fun _ => 0) (C := ⟨0, 4, Demo.up 1, Demo.down 1, false⟩)
    (C' := ⟨0, 4, Demo.up 1, Demo.down 1, true⟩) Demo.flatCall Demo.lib_lawful.lab rfl
  exact ⟨out, h, h' 12 (by decide)⟩
example : ∃ out, (labScaler (2 ^ 64) Demo.lib Demo.cx 0).resizeRgba (Demo.cimg 4 0) (Demo.cout 4 0) true = some (.ok (), out) := by
  obtain ⟨_, _, out, _, h, _⟩ := C102_padding_rgba_partial (L := demoLib) (cpu := ⟨true, true⟩) (s := .preferSpeed) (fma := true)
    (fused := true) (rcp := fun n => 1 / n) (bits := fun _ => 0) (C := ⟨0, 4, Demo.up 1, Demo.down 1, true⟩)
    (C' := ⟨0, 4, Demo.up 1, Demo.down 1, false⟩) Demo.ccall4 Demo.lib_lawful.labA rfl true
  exact ⟨out, h⟩

/-- **C102 fails**: a flat picture of 10 with padded rows is resized to 10 by the ordinary scaler, which leaves the
padding of the destination alone; the Lab scaler mixes in the source padding and overwrites the padding of the
destination, and leaves the end of the last row unwritten. -/
theorem C102_violated :
    (Demo.cx.toScaling.resizeRgb (Demo.flat 10) Demo.flatOut).map (fun q => q.2.buffer) =
      some [10, 10, 10, 10, 10, 10, 7, 7, 10, 10, 10, 10, 10, 10, 7, 7] ∧
    ((labScaler (2 ^ 64) Demo.lib Demo.cx 0).resizeRgb (Demo.flat 10) Demo.flatOut).map (fun q => q.2.buffer) =
      some [48, 48, 22, 22, 10, 10, 22, 22, 48, 48, 48, 48, 7, 7, 7, 7] := by
  refine ⟨by decide +kernel, by decide +kernel⟩


/-! ### C103, C104, C105: all nine scalers -/

/-- The nine colour-space scalers around an ordinary scaler. -/
def colourScalers {T : Type} (W : ℕ) (K : ColorLib ℕ ℚ T) (S : InnerScaler ℕ ℚ) (t : T) (lum : ℕ) : List (Scaling ℕ) :=
  [linearScaler W K S 0 t, linearApproxScaler W K S 0 t, labScaler W K S 0, luvScaler W K S 0, lchScaler W K S 0,
    oklabScaler W K S 0 t, jzazbzScaler W K S 0 lum t, sigmoidalScaler W K S 0, xyzScaler W K S 0]

/-- Each of them is one of two programs. -/
theorem mem_colourScalers {T : Type} {W : ℕ} {K : ColorLib ℕ ℚ T} {S : InnerScaler ℕ ℚ} {t : T} {lum : ℕ} {M : Scaling ℕ}
    (hK : K.Lawful) (h : M ∈ colourScalers W K S t lum) :
    (∃ C C' : ColorSpace ℕ ℚ, (KeepsLength 3 C.enc ∧ KeepsLength 3 C.dec) ∧ (KeepsLength 4 C'.enc ∧ KeepsLength 4 C'.dec) ∧
      C.sizeOf = 4 ∧ C'.sizeOf = 4 ∧ M = f32Scaler W S C C') ∨
    (∃ C C' : ColorSpace ℕ ℕ, (KeepsLength 3 C.enc ∧ KeepsLength 3 C.dec) ∧ (KeepsLength 4 C'.enc ∧ KeepsLength 4 C'.dec) ∧
      C.sizeOf = 1 ∧ C'.sizeOf = 1 ∧ M = ⟨fun _ _ => none, colorResize W 3 C S.rgb8,
        fun a b p => colorResize W 4 C' (fun a b => S.rgba8 a b p) a b⟩) := by
  unfold colourScalers at h
  simp only [List.mem_cons, List.not_mem_nil, or_false] at h
  rcases h with rfl | rfl | rfl | rfl | rfl | rfl | rfl | rfl | rfl
  · exact Or.inl ⟨_, _, hK.linear t, hK.linearA K.srgb, rfl, rfl, rfl⟩
  · exact Or.inr ⟨⟨0, 1, K.rgbToLinear8 t, K.linear8ToRgb t, false⟩, ⟨0, 1, K.rgbaToLinear8 t, K.linear8ToRgba t, false⟩,
      hK.linear8 t, hK.linear8A t, rfl, rfl, rfl⟩
  · exact Or.inl ⟨_, _, hK.lab, hK.labA, rfl, rfl, rfl⟩
  · exact Or.inl ⟨_, _, hK.luv, hK.luvA, rfl, rfl, rfl⟩
  · exact Or.inl ⟨_, _, hK.lch, hK.lchA, rfl, rfl, rfl⟩
  · exact Or.inl ⟨_, _, hK.oklab t, hK.oklabA t, rfl, rfl, rfl⟩
  · exact Or.inl ⟨_, _, hK.jzazbz lum t, hK.jzazbzA lum t, rfl, rfl, rfl⟩
  · exact Or.inl ⟨_, _, hK.sigmoidal, hK.sigmoidalA, rfl, rfl, rfl⟩
  · exact Or.inl ⟨_, _, hK.xyz, hK.xyzA, rfl, rfl, rfl⟩

theorem colorResize_same {A B : Type} {W N : ℕ} {C : ColorSpace A B}
    {inner : Image B → Image B → Option (Except Err Unit × Image B)} {store into : Image A} (hN : 1 ≤ N)
    (hc : checkResize W N false store into = .ok ()) (hw : store.width = into.width) (hh : store.height = into.height) :
    ∃ out, colorResize W N C inner store into = some (.ok (), out) ∧ SameShape out into ∧
      ∀ y x c, y < into.height → x < into.width → c < N →
        sample out.buffer (into.strideOf N) N y x c = sample store.buffer (store.strideOf N) N y x c := by
  obtain ⟨c1, c2, c3, _⟩ := checkResize_ok.1 hc
  obtain ⟨out, o1, o2, o3, _⟩ := copiedToMut_spec hN c2 c1 hw hh c3.2.2.1
  refine ⟨out, ?_, o2, o3⟩
  unfold colorResize
  rw [hc]
  simp only
  rw [if_pos ⟨hw, hh⟩, o1]
  rfl

/-- **C103.** When source and destination have the same size, every colour scaler copies the picture sample by sample,
whatever the strides: no conversion, so no loss. -/
theorem C103_same_size {T : Type} {W : ℕ} {K : ColorLib ℕ ℚ T} {S : InnerScaler ℕ ℚ} {t : T} {lum : ℕ} {M : Scaling ℕ}
    (hK : K.Lawful) (hM : M ∈ colourScalers W K S t lum) {store into : Image ℕ} (hw : store.width = into.width)
    (hh : store.height = into.height) (p : Bool) :
    (checkResize W 3 false store into = .ok () → ∃ out, M.resizeRgb store into = some (.ok (), out) ∧ SameShape out into ∧
      ∀ y x c, y < into.height → x < into.width → c < 3 →
        sample out.buffer (into.strideOf 3) 3 y x c = sample store.buffer (store.strideOf 3) 3 y x c) ∧
    (checkResize W 4 false store into = .ok () → ∃ out, M.resizeRgba store into p = some (.ok (), out) ∧ SameShape out into ∧
      ∀ y x c, y < into.height → x < into.width → c < 4 →
        sample out.buffer (into.strideOf 4) 4 y x c = sample store.buffer (store.strideOf 4) 4 y x c) := by
  rcases mem_colourScalers hK hM with ⟨C, C', _, _, _, _, rfl⟩ | ⟨C, C', _, _, _, _, rfl⟩
  · exact ⟨fun hc => colorResize_same (C := C) (inner := S.rgbF32) (by norm_num) hc hw hh,
      fun hc => colorResize_same (C := C') (inner := fun a b => S.rgbaF32 a b p) (by norm_num) hc hw hh⟩
  · exact ⟨fun hc => colorResize_same (C := C) (inner := S.rgb8) (by norm_num) hc hw hh,
      fun hc => colorResize_same (C := C') (inner := fun a b => S.rgba8 a b p) (by norm_num) hc hw hh⟩

/-- A 2 × 1 picture with padding. -/
def Demo.same : Image ℕ :=
  { buffer := [1, 2, 3, 4, 5, 6, 0], channels := 3, width := 2, height := 1, stride := 7, bitDepth := 8 }

example : ∃ out, (luvScaler (2 ^ 64) Demo.lib Demo.cx 0).resizeRgb Demo.same (Demo.cout 3 0) = some (.ok (), out) ∧
    sample out.buffer 6 3 0 1 2 = some 6 := by
  obtain ⟨out, h1, _, h2⟩ := (C103_same_size (W := 2 ^ 64) (K := Demo.lib) (S := Demo.cx) (t := 1) (lum := 1)
    (M := luvScaler (2 ^ 64) Demo.lib Demo.cx 0) Demo.lib_lawful (by unfold colourScalers; simp) (store := Demo.same)
    (into := Demo.cout 3 0) rfl rfl true).1 (by decide +kernel)
  exact ⟨out, h1, h2 0 1 2 (by decide) (by decide) (by decide)⟩

theorem genericResize_error_iff {A : Type} {W N : ℕ} {F : Format A} {L : Lib} {r : ResamplingFunction} {store into d : Image A}
    {e : Err} : genericResize W N F L r store into = some (.error e, d) ↔
      checkResize W N F.shouldHaveBitDepth store into = .error e ∧ d = into := by
  unfold genericResize
  cases checkResize W N F.shouldHaveBitDepth store into with
  | error e' => simp [eq_comm]
  | ok u =>
    simp only
    split_ifs
    · cases store.copiedToMut N into <;> simp
    · cases resizeByNearest N store into <;> simp
    · cases convolve W N F (tableOf L r) store into <;> simp

theorem genericResizeWithAlpha_error_iff {A : Type} {W N : ℕ} {F : Format A} {O : AlphaOps A} {L : Lib} {r : ResamplingFunction}
    {store into d : Image A} {p : Bool} {e : Err} : genericResizeWithAlpha W N F O L r store into p = some (.error e, d) ↔
      checkResize W N F.shouldHaveBitDepth store into = .error e ∧ d = into := by
  unfold genericResizeWithAlpha
  cases checkResize W N F.shouldHaveBitDepth store into with
  | error e' => simp [eq_comm]
  | ok u =>
    simp only
    split_ifs
    · cases store.copiedToMut N into <;> simp
    · cases resizeByNearest N store into <;> simp
    · cases premultiplied W N F O p store into with
      | none => simp
      | some w =>
        simp only [Option.bind_eq_bind, Option.bind_some]
        cases convolve W N F (tableOf L r) w into with
        | none => simp
        | some m =>
          simp only [Option.bind_some]
          cases O.unpremultiply m <;> simp
    · cases premultiplied W N F O p store into with
      | none => simp
      | some w =>
        simp only [Option.bind_eq_bind, Option.bind_some]
        cases convolve W N F (tableOf L r) w into <;> simp

/-- A colour scaler fails exactly when the checks fail, if its inner resize does. -/
theorem colorResize_error_iff {A B : Type} {W N : ℕ} {C : ColorSpace A B}
    {inner : Image B → Image B → Option (Except Err Unit × Image B)} {store into d : Image A} {e : Err}
    (hf : checkResize W N false store into = .ok () → ColorFits N C store into)
    (hi : ∀ a b e d, inner a b = some (.error e, d) → checkResize W N false a b = .error e) :
    colorResize W N C inner store into = some (.error e, d) ↔ checkResize W N false store into = .error e ∧ d = into := by
  cases hc : checkResize W N false store into with
  | error e' =>
    unfold colorResize
    rw [hc]
    simp [eq_comm]
  | ok u =>
    refine ⟨fun h => ?_, fun h => absurd h.1 (by simp)⟩
    exfalso
    unfold colorResize at h
    rw [hc] at h
    simp only at h
    split_ifs at h with hsz
    · cases hcp : store.copiedToMut N into <;> rw [hcp] at h <;> simp at h
    · obtain ⟨c1, c2, c3, c4, _⟩ := checkResize_ok.1 hc
      have hf := hf hc
      rw [hf.channels] at c4
      rw [(encodeStage_eq hf c2 (fits_of_overflow c4) c3.1).1] at h
      simp only [Option.bind_eq_bind, Option.bind_some] at h
      cases hin : inner (encoded N C store into) (Image.alloc N C.default into.width into.height) with
      | none => rw [hin] at h; simp at h
      | some q =>
        rw [hin] at h
        obtain ⟨q1, q2⟩ := q
        cases q1 with
        | error e2 =>
          have := hi _ _ _ _ hin
          rw [encoded_check hf hc] at this
          exact absurd this (by simp)
        | ok u =>
          simp only [Option.bind_some] at h
          cases hdd : decodeStage N C q2 into <;> rw [hdd] at h <;> simp at h

/-- **C104.** Every colour scaler reports exactly the errors of the ordinary scaler, for the same calls, and a call that
fails leaves the destination as it was; in particular the inner resize never fails by itself. (For pictures whose
channel field is right and whose rows fit `u32`.) -/
theorem C104_errors {T : Type} {W : ℕ} {L : Lib} {r : ResamplingFunction} {K : ColorLib ℕ ℚ T} {cpu : Cpu} {s : Workload}
    {fma fused : Bool} {rcp : ℚ → ℚ} {bits : ℚ → ℕ} {t : T} {lum : ℕ} {M : Scaling ℕ} (hK : K.Lawful)
    (hM : M ∈ colourScalers W K (x86Scaler cpu s fma fused rcp bits W L r) t lum) {store into d : Image ℕ} {e : Err}
    (hw : store.width * 16 < 2 ^ 32 ∧ into.width * 16 < 2 ^ 32) (hh : store.height < 2 ^ 32 ∧ into.height < 2 ^ 32) :
    let S := x86Scaler cpu s fma fused rcp bits W L r
    (store.channels = 3 →
      ((M.resizeRgb store into = some (.error e, d) ↔ S.toScaling.resizeRgb store into = some (.error e, d)) ∧
      (M.resizeRgb store into = some (.error e, d) → d = into))) ∧
    (store.channels = 4 → ∀ p,
      ((M.resizeRgba store into p = some (.error e, d) ↔ S.toScaling.resizeRgba store into p = some (.error e, d)) ∧
      (M.resizeRgba store into p = some (.error e, d) → d = into))) := by
  have hf : ∀ {B : Type} {N : ℕ} {C : ColorSpace ℕ B}, 1 ≤ N → N ≤ 4 → store.channels = N → (KeepsLength N C.enc ∧ KeepsLength N C.dec) →
      (C.sizeOf = 4 ∨ C.sizeOf = 1) → ColorFits N C store into := by
    intro B N C h1 h2 h3 h4 h5
    have e1 : store.width * N ≤ store.width * 4 := Nat.mul_le_mul_left _ h2
    have e2 : into.width * N ≤ into.width * 4 := Nat.mul_le_mul_left _ h2
    refine ⟨h3, h1, h4.1, h4.2, by omega, ⟨?_, hh.1⟩, ?_, hh.2⟩
    · rcases h5 with e | e <;> rw [e] <;> omega
    · rcases h5 with e | e <;> rw [e] <;> omega
  have plain : (x86Scaler cpu s fma fused rcp bits W L r).toScaling.resizeRgb store into = some (.error e, d) ↔
      checkResize W 3 false store into = .error e ∧ d = into :=
    genericResize_error_iff (F := formatX86 cpu s 3) (L := L) (r := r)
  have plainA : ∀ p, (x86Scaler cpu s fma fused rcp bits W L r).toScaling.resizeRgba store into p = some (.error e, d) ↔
      checkResize W 4 false store into = .error e ∧ d = into := fun p =>
    genericResizeWithAlpha_error_iff (F := formatX86 cpu s 4) (O := alphaX86U8 cpu rcp) (L := L) (r := r)
  rcases mem_colourScalers hK hM with ⟨C, C', hC, hC', k1, k2, rfl⟩ | ⟨C, C', hC, hC', k1, k2, rfl⟩
  · refine ⟨fun hch => ?_, fun hch p => ?_⟩
    · have key := colorResize_error_iff (W := W) (C := C) (e := e) (d := d)
        (inner := (x86Scaler cpu s fma fused rcp bits W L r).rgbF32) (fun _ => hf (by norm_num) (by norm_num) hch hC (Or.inl k1))
        (fun a b e d h => (genericResize_error_iff.1 h).1)
      exact ⟨key.trans plain.symm, fun h => (key.1 h).2⟩
    · have key := colorResize_error_iff (W := W) (C := C') (e := e) (d := d)
        (inner := fun a b => (x86Scaler cpu s fma fused rcp bits W L r).rgbaF32 a b p)
        (fun _ => hf (by norm_num) (by norm_num) hch hC' (Or.inl k2))
        (fun a b e d h => (genericResizeWithAlpha_error_iff.1 h).1)
      exact ⟨key.trans (plainA p).symm, fun h => (key.1 h).2⟩
  · refine ⟨fun hch => ?_, fun hch p => ?_⟩
    · have key := colorResize_error_iff (W := W) (C := C) (e := e) (d := d)
        (inner := (x86Scaler cpu s fma fused rcp bits W L r).rgb8) (fun _ => hf (by norm_num) (by norm_num) hch hC (Or.inr k1))
        (fun a b e d h => (genericResize_error_iff.1 h).1)
      exact ⟨key.trans plain.symm, fun h => (key.1 h).2⟩
    · have key := colorResize_error_iff (W := W) (C := C') (e := e) (d := d)
        (inner := fun a b => (x86Scaler cpu s fma fused rcp bits W L r).rgba8 a b p)
        (fun _ => hf (by norm_num) (by norm_num) hch hC' (Or.inr k2))
        (fun a b e d h => (genericResizeWithAlpha_error_iff.1 h).1)
      exact ⟨key.trans (plainA p).symm, fun h => (key.1 h).2⟩

example : (luvScaler (2 ^ 64) Demo.lib Demo.cx 0).resizeRgb { Demo.same with width := 0 } (Demo.cout 3 0) =
    some (.error .zeroImageDimensions, Demo.cout 3 0) := by
  have hM : luvScaler (2 ^ 64) Demo.lib Demo.cx 0 ∈ colourScalers (2 ^ 64) Demo.lib Demo.cx 1 1 := by unfold colourScalers; simp
  have hc : checkResize (2 ^ 64) 3 false { Demo.same with width := 0 } (Demo.cout 3 0) = .error .zeroImageDimensions := by
    decide +kernel
  refine ((C104_errors Demo.lib_lawful hM (by decide) (by decide)).1 rfl).1.2 ?_
  exact genericResize_error_iff (F := formatX86 ⟨true, true⟩ .preferSpeed 3) (L := demoLib) (r := .bilinear) |>.2
    ⟨hc, rfl⟩

/-- **C105 (partial).** Every scaler that offers the trait's `resize_cbcr8` should resize two-channel images. The nine
colour scalers panic (`C105_violated`); proved for the ordinary scaler. -/
theorem C105_cbcr_partial {W : ℕ} {L : Lib} {r : ResamplingFunction} {cpu : Cpu} {s : Workload} {fma fused : Bool}
    {rcp : ℚ → ℚ} {bits : ℚ → ℕ} {store into : Image ℕ} (h : AcceptedCall W 2 r store into) :
    ∃ out, (x86Scaler cpu s fma fused rcp bits W L r).toScaling.resizeCbcr8 store into = some (.ok (), out) ∧
      SameShape out into ∧ PaddingKept 2 into out :=
  C52_no_oob h (Or.inl (by norm_num))

/-- **C105 fails**: `resize_cbcr8` of every colour scaler panics, for all pictures. -/
theorem C105_violated {T : Type} {W : ℕ} {K : ColorLib ℕ ℚ T} {S : InnerScaler ℕ ℚ} {t : T} {lum : ℕ} {M : Scaling ℕ}
    (hM : M ∈ colourScalers W K S t lum) (store into : Image ℕ) : M.resizeCbcr8 store into = none := by
  unfold colourScalers at hM
  simp only [List.mem_cons, List.not_mem_nil, or_false] at hM
  rcases hM with rfl | rfl | rfl | rfl | rfl | rfl | rfl | rfl | rfl <;> rfl

example : ∃ out, Demo.cx.toScaling.resizeCbcr8 (Demo.cimg 2 1) (Demo.cout 2 1) = some (.ok (), out) := by
  obtain ⟨out, h, _⟩ := C105_cbcr_partial (L := demoLib) (cpu := ⟨true, true⟩) (s := .preferSpeed) (fma := true) (fused := true)
    (rcp := fun n => 1 / n) (bits := fun _ => 0) (W := 2 ^ 64) (r := .bilinear) (store := Demo.cimg 2 1) (into := Demo.cout 2 1)
    (by constructor <;> decide +kernel)
  exact ⟨out, h⟩
example : (xyzScaler (2 ^ 64) Demo.lib Demo.cx 0).resizeCbcr8 (Demo.cimg 2 1) (Demo.cout 2 1) = none :=
  C105_violated (W := 2 ^ 64) (K := Demo.lib) (S := Demo.cx) (t := 1) (lum := 1) (by unfold colourScalers; simp) _ _

/-! ### C106: locality -/

/-- **C106.** A pixel of an f32 colour scaler's result (every scaler but `LinearApproxScaler`; RGB, and RGBA without
premultiplication) depends only on the source pixels inside its vertical and horizontal windows. -/
theorem C106_locality {W N : ℕ} {L : Lib} {r : ResamplingFunction} {store store' into into' : Image ℕ} {cpu : Cpu} {s : Workload}
    {fma fused : Bool} {rcp : ℚ → ℚ} {bits : ℚ → ℕ} {C C' : ColorSpace ℕ ℚ}
    (h : AcceptedColor W N r store into) (h' : AcceptedColor W N r store' into')
    (hC : KeepsLength 3 C.enc ∧ KeepsLength 3 C.dec) (hC' : KeepsLength 4 C'.enc ∧ KeepsLength 4 C'.dec)
    (k : C.sizeOf = 4) (k' : C'.sizeOf = 4)
    (hu : Unpadded N store ∧ Unpadded N store' ∧ Unpadded N into ∧ Unpadded N into')
    (hsz : store'.width = store.width ∧ store'.height = store.height)
    (hdz : into'.width = into.width ∧ into'.height = into.height) {y x : ℕ} (hy : y < into.height) (hx : x < into.width)
    (hp : ∀ vf hf j k, tableOf L r store.height into.height = some vf → tableOf L r store.width into.width = some hf →
      (if store.height = into.height then j = y else (vf.bound y).start ≤ j ∧ j < (vf.bound y).start + (vf.bound y).size) →
      (if store.width = into.width then k = x else (hf.bound x).start ≤ k ∧ k < (hf.bound x).start + (hf.bound x).size) →
      pixelAt store.buffer (store.strideOf N) N j k = pixelAt store'.buffer (store'.strideOf N) N j k) :
    let M := f32Scaler W (x86Scaler cpu s fma fused rcp bits W L r) C C'
    (N = 3 → ∃ out out', M.resizeRgb store into = some (.ok (), out) ∧ M.resizeRgb store' into' = some (.ok (), out') ∧
      pixelAt out.buffer (into.strideOf N) N y x = pixelAt out'.buffer (into'.strideOf N) N y x) ∧
    (N = 4 → ∃ out out', M.resizeRgba store into false = some (.ok (), out) ∧
      M.resizeRgba store' into' false = some (.ok (), out') ∧
      pixelAt out.buffer (into.strideOf N) N y x = pixelAt out'.buffer (into'.strideOf N) N y x) := by
  have main : ∀ (D : ColorSpace ℕ ℚ) (inner : Image ℚ → Image ℚ → Option (Except Err Unit × Image ℚ)),
      (KeepsLength N D.enc ∧ KeepsLength N D.dec) → D.sizeOf = 4 →
      (∀ a b, inner a b = genericResize W N (formatF32X86 cpu fma fused ratOps N) L r a b) →
      ∃ out out', colorResize W N D inner store into = some (.ok (), out) ∧
        colorResize W N D inner store' into' = some (.ok (), out') ∧
        pixelAt out.buffer (into.strideOf N) N y x = pixelAt out'.buffer (into'.strideOf N) N y x := by
    intro D inner hD h4 hinner
    have hf := h.fits hD.1 hD.2 (Or.inl h4)
    have hf' := h'.fits hD.1 hD.2 (Or.inl h4)
    have a1 := h.inner hf
    have a1' := h'.inner hf'
    obtain ⟨c1, c2, c3, c4, _⟩ := checkResize_ok.1 h.call.checked
    obtain ⟨c1', c2', c3', c4', _⟩ := checkResize_ok.1 h'.call.checked
    obtain ⟨vf, hfw, _, ev, eh, Tv, Th, _⟩ := f32X86_raw (L := L) a1 cpu fma fused ratOps
    obtain ⟨l1, l2⟩ := validate_facts c2
    obtain ⟨l1', l2'⟩ := validate_facts c2'
    have m := (mapPicture_spec hD.1 (img := store) (d := if D.depthFromSource then store.bitDepth else into.bitDepth) l2
      (by rw [l1, Nat.mul_comm])).2
    have m' := (mapPicture_spec hD.1 (img := store') (d := if D.depthFromSource then store'.bitDepth else into'.bitDepth) l2'
      (by rw [l1', Nat.mul_comm])).2
    have heq : encoded N D store into = mapPicture N D.enc store (if D.depthFromSource then store.bitDepth else into.bitDepth) := by
      unfold encoded; rw [hu.1.eq]
    have heq' : encoded N D store' into' = mapPicture N D.enc store' (if D.depthFromSource then store'.bitDepth else into'.bitDepth) := by
      unfold encoded; rw [hu.2.1.eq]
    have es : (encoded N D store into).strideOf N = store.width * N := packed_strideOf
    have es' : (encoded N D store' into').strideOf N = store'.width * N := packed_strideOf
    have agree : ∀ c, c < N → ∀ vf hf j k, tableOf L r store.height into.height = some vf →
        tableOf L r store.width into.width = some hf →
        (if store.height = into.height then j = y else (vf.bound y).start ≤ j ∧ j < (vf.bound y).start + (vf.bound y).size) →
        (if store.width = into.width then k = x else (hf.bound x).start ≤ k ∧ k < (hf.bound x).start + (hf.bound x).size) →
        sample (encoded N D store into).buffer ((encoded N D store into).strideOf N) N j k c =
          sample (encoded N D store' into').buffer ((encoded N D store' into').strideOf N) N j k c := by
      intro c hc vf1 hf1 j k ev1 eh1 hj hk
      have hp' := hp vf1 hf1 j k ev1 eh1 hj hk
      have ev2 : tableOf L r store.height into.height = some vf := ev
      have eh2 : tableOf L r store.width into.width = some hfw := eh
      rw [ev2] at ev1
      rw [eh2] at eh1
      obtain rfl := Option.some.inj ev1
      obtain rfl := Option.some.inj eh1
      have hjb : j < store.height := by
        split_ifs at hj with q
        · omega
        · have : (vf.bound y).start + (vf.bound y).size ≤ store.height := Tv.inside y hy
          omega
      have hkb : k < store.width := by
        split_ifs at hk with q
        · omega
        · have : (hfw.bound x).start + (hfw.bound x).size ≤ store.width := Th.inside x hx
          omega
      rw [es, es', heq, heq', m j k c hjb hkb hc, m' j k c (by rw [hsz.2]; exact hjb) (by rw [hsz.1]; exact hkb) hc, hp']
    obtain ⟨w, w1, w2, _⟩ := C87_f32_no_oob (L := L) a1 cpu fma fused ratOps
    obtain ⟨w', w1', w2', _⟩ := C87_f32_no_oob (L := L) a1' cpu fma fused ratOps
    obtain ⟨out, o1, _, o3, _⟩ := colorResize_run hf h.call.checked h.call.sizes ((hinner _ _).trans w1) w2
    obtain ⟨out', o1', _, o3', _⟩ := colorResize_run hf' h'.call.checked h'.call.sizes ((hinner _ _).trans w1') w2'
    refine ⟨out, out', o1, o1', ?_⟩
    have e : into.strideOf N = into.width * N := by
      unfold Image.strideOf
      rw [hu.2.2.1]
      split_ifs <;> rfl
    have e' : into'.strideOf N = into'.width * N := by
      unfold Image.strideOf
      rw [hu.2.2.2]
      split_ifs <;> rfl
    rw [e, e', o3 y x hy hx, o3' y x (by rw [hdz.2]; exact hy) (by rw [hdz.1]; exact hx)]
    congr 1
    apply pixelAt_ext
    intro c hc
    obtain ⟨v, v', v1, v1', v2⟩ := C94_f32_locality (L := L) a1 a1' cpu fma fused ratOps hsz hdz hy hx hc (agree c hc)
    rw [w1] at v1
    rw [w1'] at v1'
    simp only [Option.some.injEq, Prod.mk.injEq, true_and] at v1 v1'
    subst v1
    subst v1'
    have f1 : (Image.alloc N D.default into.width into.height).strideOf N = into.width * N := packed_strideOf
    have f2 : (Image.alloc N D.default into'.width into'.height).strideOf N = into'.width * N := packed_strideOf
    rw [f1, f2] at v2
    exact v2
  refine ⟨fun h3 => ?_, fun h3 => ?_⟩
  · subst h3
    exact main C _ hC k (fun _ _ => rfl)
  · subst h3
    exact main C' _ hC' k' (fun _ _ => withAlpha_false)

example : ∃ out, (f32Scaler (2 ^ 64) Demo.cx ⟨0, 4, Demo.up 1, Demo.down 1, false⟩ ⟨0, 4, Demo.up 1, Demo.down 1, true⟩).resizeRgb
    (Demo.cimg 3 0) (Demo.cout 3 0) = some (.ok (), out) := by
  obtain ⟨out, _, h, _⟩ := (C106_locality (L := demoLib) (cpu := ⟨true, true⟩) (s := .preferSpeed) (fma := true) (fused := true)
    (rcp := fun n => 1 / n) (bits := fun _ => 0) (C := ⟨0, 4, Demo.up 1, Demo.down 1, false⟩)
    (C' := ⟨0, 4, Demo.up 1, Demo.down 1, true⟩) Demo.ccall3 Demo.ccall3 Demo.lib_lawful.lab Demo.lib_lawful.labA rfl rfl
    ⟨rfl, rfl, rfl, rfl⟩ ⟨rfl, rfl⟩ ⟨rfl, rfl⟩ (y := 0) (x := 1) (by decide) (by decide) (fun _ _ _ _ _ _ _ _ => rfl)).1 rfl
  exact ⟨out, h⟩


/-! ### C107: locality with premultiplication -/

/-- **C107 (partial).** With `premultiply_alpha = true` too, a pixel of a resized RGBA f32 picture should depend only on the
source pixels in its windows. It does not (`C107_violated`): whether the picture is premultiplied at all depends on every
alpha of the picture. Proved for two pictures that both have varying or both have constant alpha (any strides):
pixels with equal windows are equal. -/
theorem C107_alpha_locality_partial {W : ℕ} {L : Lib} {r : ResamplingFunction} {store store' into into' : Image ℚ}
    (h : AcceptedF W 4 r store into) (h' : AcceptedF W 4 r store' into') (hch : store.channels = 4) (hch' : store'.channels = 4)
    (cpu : Cpu) (fma fused : Bool) {bits : ℚ → ℕ} (hb : BitPatterns bits store) (hb' : BitPatterns bits store')
    (hv : AlphaVariesF store ↔ AlphaVariesF store')
    (hsz : store'.width = store.width ∧ store'.height = store.height)
    (hdz : into'.width = into.width ∧ into'.height = into.height) {y x : ℕ} (hy : y < into.height) (hx : x < into.width)
    (hp : ∀ vf hf j k, tableOf L r store.height into.height = some vf → tableOf L r store.width into.width = some hf →
      (if store.height = into.height then j = y else (vf.bound y).start ≤ j ∧ j < (vf.bound y).start + (vf.bound y).size) →
      (if store.width = into.width then k = x else (hf.bound x).start ≤ k ∧ k < (hf.bound x).start + (hf.bound x).size) →
      pixelAt store.buffer (store.strideOf 4) 4 j k = pixelAt store'.buffer (store'.strideOf 4) 4 j k) :
    ∃ out out',
      genericResizeWithAlpha W 4 (formatF32X86 cpu fma fused ratOps 4) (alphaX86F32 cpu bits) L r store into true =
        some (.ok (), out) ∧
      genericResizeWithAlpha W 4 (formatF32X86 cpu fma fused ratOps 4) (alphaX86F32 cpu bits) L r store' into' true =
        some (.ok (), out') ∧
      pixelAt out.buffer (into.strideOf 4) 4 y x = pixelAt out'.buffer (into'.strideOf 4) 4 y x := by
  obtain ⟨c1, c2, c3, _⟩ := checkResize_ok.1 h.checked
  obtain ⟨c1', c2', c3', _⟩ := checkResize_ok.1 h'.checked
  have n1 : (alphaX86F32 cpu bits).isNeeded store = true ↔ AlphaVariesF store :=
    C37_alpha_check_f32 (ρ := F32.rnd) c2 c3.1 c3.2.1 (by have := h.small.1; omega) hb.1 hb.2
  have n1' : (alphaX86F32 cpu bits).isNeeded store' = true ↔ AlphaVariesF store' :=
    C37_alpha_check_f32 (ρ := F32.rnd) c2' c3'.1 c3'.2.1 (by have := h'.small.1; omega) hb'.1 hb'.2
  obtain ⟨work, w1, w2, w3, w4, w5, w6, w7⟩ := premultiplied_f32 h hch cpu fma fused bits
  obtain ⟨work', w1', w2', w3', w4', w5', w6', w7'⟩ := premultiplied_f32 h' hch' cpu fma fused bits
  obtain ⟨vf, hf, mid, ev, eh, Tv, Th, m1, m2, _⟩ := f32X86_raw (L := L) w7 cpu fma fused ratOps
  obtain ⟨mid', m1', m2', _⟩ := C87_f32_no_oob (L := L) w7' cpu fma fused ratOps
  rw [w3] at ev
  rw [w2] at eh
  have px : ∀ j k c, j < store.height → k < store.width → c < 4 →
      pixelAt store.buffer (store.strideOf 4) 4 j k = pixelAt store'.buffer (store'.strideOf 4) 4 j k →
      pxD 0 store.buffer (store.strideOf 4) 4 j k c = pxD 0 store'.buffer (store'.strideOf 4) 4 j k c := by
    intro j k c _ _ hc e
    unfold pxD
    rw [← pixelAt_get hc, ← pixelAt_get hc, e]
  have sx : ∀ j k c, c < 4 →
      pixelAt store.buffer (store.strideOf 4) 4 j k = pixelAt store'.buffer (store'.strideOf 4) 4 j k →
      sample store.buffer (store.strideOf 4) 4 j k c = sample store'.buffer (store'.strideOf 4) 4 j k c := by
    intro j k c hc e
    rw [← pixelAt_get hc, ← pixelAt_get hc, e]
  obtain ⟨_, vw, _⟩ := checkResize_ok.1 w7.checked
  obtain ⟨_, vw', _⟩ := checkResize_ok.1 w7'.checked
  have agree : ∀ j k c, j < store.height → k < store.width → c < 4 →
      pixelAt store.buffer (store.strideOf 4) 4 j k = pixelAt store'.buffer (store'.strideOf 4) 4 j k →
      sample work.buffer (work.strideOf 4) 4 j k c = sample work'.buffer (work'.strideOf 4) 4 j k c := by
    intro j k c hj hk hc e
    by_cases hva : AlphaVariesF store
    · have p := (w5 (n1.2 hva)).2.2 j k hj hk
      have p' := (w5' (n1'.2 (hv.1 hva))).2.2 j k (by rw [hsz.2]; exact hj) (by rw [hsz.1]; exact hk)
      by_cases h3 : c < 3
      · rw [sample_some 0 vw (by rw [w3]; exact hj) (by rw [w2]; exact hk) hc,
          sample_some 0 vw' (by rw [w3', hsz.2]; exact hj) (by rw [w2', hsz.1]; exact hk) hc, p.1 c h3, p'.1 c h3,
          px j k c hj hk hc e, px j k 3 hj hk (by omega) e]
      · obtain rfl : c = 3 := by omega
        rw [p.2, p'.2]
        exact sx j k 3 (by omega) e
    · have e1 := w4 (by by_contra q; exact hva (n1.1 (by simpa using q)))
      have e2 := w4' (by by_contra q; exact hva (hv.2 (n1'.1 (by simpa using q))))
      rw [e1, e2]
      exact sx j k c hc e
  have loc : ∀ c, c < 4 → sample mid.buffer (into.strideOf 4) 4 y x c = sample mid'.buffer (into'.strideOf 4) 4 y x c := by
    intro c hc
    obtain ⟨q, q', q1, q1', q2⟩ := C94_f32_locality (L := L) w7 w7' cpu fma fused ratOps
      ⟨by rw [w2', w2]; exact hsz.1, by rw [w3', w3]; exact hsz.2⟩ hdz (y := y) (x := x) (c := c) hy hx hc (by
        intro vf' hf' j k ev' eh' hj hk
        rw [w3] at ev'
        rw [w2] at eh'
        have e := hp vf' hf' j k ev' eh' (by rw [w3] at hj; exact hj) (by rw [w2] at hk; exact hk)
        rw [ev] at ev'
        rw [eh] at eh'
        obtain rfl := Option.some.inj ev'
        obtain rfl := Option.some.inj eh'
        refine agree j k c ?_ ?_ hc e
        · rw [← w3]
          split_ifs at hj with q
          · omega
          · have := Tv.inside y hy; omega
        · rw [← w2]
          split_ifs at hk with q
          · omega
          · have := Th.inside x hx; omega)
    rw [m1] at q1
    rw [m1'] at q1'
    simp only [Option.some.injEq, Prod.mk.injEq, true_and] at q1 q1'
    subst q1
    subst q1'
    exact q2
  obtain ⟨out, o1, _, _, o4⟩ := unpremultiplyF_spec cpu bits (img := mid) (sameShape_validate m2 c1)
    (by rw [m2.1]; exact c3.2.2.1)
  obtain ⟨out', o1', _, _, o4'⟩ := unpremultiplyF_spec cpu bits (img := mid') (sameShape_validate m2' c1')
    (by rw [m2'.1]; exact c3'.2.2.1)
  rw [sameShape_strideOf m2, m2.1, m2.2.1] at o4
  rw [sameShape_strideOf m2', m2'.1, m2'.2.1] at o4'
  refine ⟨out, out', withAlpha_compose h.checked h.filter h.sizes w1 w2 w3 m1 o1,
    withAlpha_compose h'.checked h'.filter h'.sizes w1' w2' w3' m1' o1', ?_⟩
  apply pixelAt_ext
  intro c hc
  rw [o4 y x c hy hx hc, o4' y x c (by rw [hdz.2]; exact hy) (by rw [hdz.1]; exact hx) hc, hdz.1]
  have e : ∀ c, c < 4 → pxD 0 mid.buffer (into.strideOf 4) 4 y x c = pxD 0 mid'.buffer (into'.strideOf 4) 4 y x c := by
    intro c hc
    unfold pxD
    rw [loc c hc]
  unfold pixelVal
  dsimp only
  rw [e c hc, e 3 (by omega)]

namespace Demo
/-- 8 × 1 pixels of colour 8 and alpha 1/2, except that the last one has alpha `a`. -/
def far (a : ℚ) : Image ℚ :=
  { buffer := (List.range 28).map (fun i => if i % 4 = 3 then 1 / 2 else 8) ++ [8, 8, 8, a], channels := 4, width := 8, height := 1,
    stride := 32, bitDepth := 0 }
/-- A 4 × 1 destination. -/
def farOut : Image ℚ := { buffer := List.replicate 16 7, channels := 4, width := 4, height := 1, stride := 16, bitDepth := 0 }
theorem farCall : AcceptedF (2 ^ 64) 4 .bilinear (far 1) farOut := by constructor <;> decide +kernel
theorem farBits : BitPatterns bits (far 1) := ⟨by decide +kernel, by decide +kernel⟩
end Demo

example : ∃ out, genericResizeWithAlpha (2 ^ 64) 4 (formatF32X86 ⟨true, true⟩ true true ratOps 4) (alphaX86F32 ⟨true, true⟩ Demo.bits)
    demoLib .bilinear (Demo.far 1) Demo.farOut true = some (.ok (), out) := by
  obtain ⟨out, _, h, _⟩ := C107_alpha_locality_partial (L := demoLib) Demo.farCall Demo.farCall rfl rfl ⟨true, true⟩ true true
    Demo.farBits Demo.farBits Iff.rfl ⟨rfl, rfl⟩ ⟨rfl, rfl⟩ (y := 0) (x := 1) (by decide) (by decide) (fun _ _ _ _ _ _ _ _ => rfl)
  exact ⟨out, h⟩

/-- **C107 fails**: two pictures that differ only in the alpha of the last of eight pixels; the first pixel of the result,
whose window ends before the fifth source pixel, has colour 8 in one and 16 in the other. -/
theorem C107_violated :
    (∃ t, tableOf demoLib .bilinear 8 4 = some t ∧ (t.bound 0).start + (t.bound 0).size ≤ 4) ∧
    (∀ k < 7, pixelAt (Demo.far 1).buffer 32 4 0 k = pixelAt (Demo.far (1 / 2)).buffer 32 4 0 k) ∧
    (genericResizeWithAlpha (2 ^ 64) 4 (formatF32X86 ⟨false, false⟩ false false ratOps 4) (alphaX86F32 ⟨false, false⟩ Demo.bits)
      demoLib .bilinear (Demo.far 1) Demo.farOut true).map (fun q => decide (|pxD 0 q.2.buffer 16 4 0 0 0 - 8| < 1 / 100)) = some true ∧
    (genericResizeWithAlpha (2 ^ 64) 4 (formatF32X86 ⟨false, false⟩ false false ratOps 4) (alphaX86F32 ⟨false, false⟩ Demo.bits)
      demoLib .bilinear (Demo.far (1 / 2)) Demo.farOut true).map (fun q =>
        decide (|pxD 0 q.2.buffer 16 4 0 0 0 - 16| < 1 / 100)) = some true := by
  refine ⟨?_, by decide +kernel, by decide +kernel, by decide +kernel⟩
  have h : (tableOf demoLib .bilinear 8 4).map (fun t => decide ((t.bound 0).start + (t.bound 0).size ≤ 4)) = some true := by
    decide +kernel
  cases e : tableOf demoLib .bilinear 8 4 with
  | none => rw [e] at h; simp at h
  | some t =>
    rw [e] at h
    exact ⟨t, rfl, by simpa using h⟩

end PicScale
