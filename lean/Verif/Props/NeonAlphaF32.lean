import Verif.Model.NeonAlphaF32
import Verif.Lemmas.NeonAlpha
import Verif.Props.AlphaX86F32

/-!
Property theorems about RGBA f32 alpha handling on aarch64: C162–C165.
-/

namespace PicScale

open Spec

theorem mulNF_lane : LaneBy 4 mulNF fun c a => F32.rnd (c * a) := fun _ _ => rfl

theorem unpremulVecNF_lane : LaneBy 4 unpremulVecNF fun c a => if a = 0 then 0 else F32.rnd (c / a) := by
  have e : ∀ c a : ℚ, (if a = 0 then 0 else F32.div c a) = if a = 0 then 0 else F32.rnd (c / a) := by
    intro c a
    split_ifs with h
    · rfl
    · exact F32.div_eq h
  intro v a
  simp only [← e]
  rfl

theorem PixelwiseS.pixelwiseF {f : List ℚ → List ℚ} {col : ℚ → ℚ → ℚ} (h : PixelwiseS 0 4 f col fun a => a) :
    PixelwiseF 16 f col := by
  intro l hl
  obtain ⟨h1, h2⟩ := h l (by omega)
  exact ⟨by omega, fun x c hx hc => h2 x c (by omega) hc⟩

theorem premultiplyNF_spec (bits : ℚ → ℕ) {src dst : Image ℚ}
    (hs : src.validate 4 = .ok ()) (hd : dst.validate 4 = .ok ())
    (hw : src.width = dst.width) (hh : src.height = dst.height) (hp : 0 < dst.width) :
    ∃ out, (alphaNeonF32 bits).premultiply src dst = some out ∧ SameShape out dst ∧ PaddingKept 4 dst out ∧
      ∀ y x c, y < dst.height → x < dst.width → c < 4 → sample out.buffer (dst.strideOf 4) 4 y x c =
        some (pixelVal (fun c a => F32.rnd (c * a)) id (fun c => pxD 0 src.buffer (src.strideOf 4) 4 y x c) c) :=
  premultiplyImageWith_spec (premulRowF_ok (P := 16) (by norm_num) (by norm_num) (planes_pixelwise mulNF_lane).pixelwiseF)
    hs hd hw hh hp

theorem unpremultiplyNF_spec (bits : ℚ → ℕ) {img : Image ℚ} (hs : img.validate 4 = .ok ()) (hp : 0 < img.width) :
    ∃ out, (alphaNeonF32 bits).unpremultiply img = some out ∧ SameShape out img ∧ PaddingKept 4 img out ∧
      ∀ y x c, y < img.height → x < img.width → c < 4 → sample out.buffer (img.strideOf 4) 4 y x c =
        some (pixelVal (fun c a => if a = 0 then 0 else if x < img.width / 4 * 4 then F32.rnd (c / a)
          else F32.rnd (c * F32.rnd (1 / a))) id (fun c => pxD 0 img.buffer (img.strideOf 4) 4 y x c) c) := by
  obtain ⟨out, o1, o2, o3, o4⟩ := unpremultiplyImageWith_spec_x
    (unpremulRowF_ok (P := 16) (by norm_num) (by norm_num) (planes_pixelwise unpremulVecNF_lane).pixelwiseF) hs hp
  refine ⟨out, o1, o2, o3, fun y x c hy hx hc => ?_⟩
  rw [o4 y x c hy hx hc]
  have e : (x * 4 < img.width * 4 / 16 * 16) = (x < img.width / 4 * 4) := propext (by omega)
  simp only [e]

/-! ### C162 -/

/-- **C162.** On aarch64, premultiplying any RGBA f32 image into an image of the same size replaces every colour by the
correctly rounded product with alpha, keeps every alpha exactly and does not touch row padding. -/
theorem C162_premultiply_neon (bits : ℚ → ℕ) {src dst : Image ℚ}
    (hs : src.validate 4 = .ok ()) (hd : dst.validate 4 = .ok ())
    (hw : src.width = dst.width) (hh : src.height = dst.height) (hp : 0 < dst.width) :
    ∃ out, (alphaNeonF32 bits).premultiply src dst = some out ∧ SameShape out dst ∧ PaddingKept 4 dst out ∧
      ∀ y x, y < dst.height → x < dst.width →
        (∀ c, c < 3 → sample out.buffer (dst.strideOf 4) 4 y x c =
          some (F32.rnd (pxD 0 src.buffer (src.strideOf 4) 4 y x c * pxD 0 src.buffer (src.strideOf 4) 4 y x 3))) ∧
        sample out.buffer (dst.strideOf 4) 4 y x 3 = some (pxD 0 src.buffer (src.strideOf 4) 4 y x 3) := by
  obtain ⟨out, o1, o2, o3, o4⟩ := premultiplyNF_spec bits hs hd hw hh hp
  refine ⟨out, o1, o2, o3, fun y x hy hx => ⟨fun c hc => ?_, ?_⟩⟩
  · rw [o4 y x c hy hx (by omega), pixelVal, if_pos hc]
  · rw [o4 y x 3 hy hx (by omega), pixelVal, if_neg (by omega)]
    rfl

/-- Five pixels: one block and a remainder. -/
example : ∃ out, (alphaNeonF32 (fun _ => 0)).premultiply (Demo.flatF 5) (Demo.flatF 5) = some out ∧
    sample out.buffer 22 4 0 4 0 = some 15 ∧ sample out.buffer 22 4 0 0 3 = some 3 := by
  obtain ⟨out, h, _, _, h'⟩ := C162_premultiply_neon (fun _ => 0) (src := Demo.flatF 5) (dst := Demo.flatF 5)
    (by decide +kernel) (by decide +kernel) rfl rfl (by decide)
  refine ⟨out, h, ?_, (h' 0 0 (by decide) (by decide)).2.trans (by decide +kernel)⟩
  exact ((h' 0 4 (by decide) (by decide)).1 0 (by decide)).trans (by decide +kernel)

/-! ### C163 -/

/-- **C163.** On aarch64, unpremultiplying any RGBA f32 image whose alphas are 0 or between `2^-100` and `2^100` in
magnitude gives 0 for transparent pixels and `c / a` to within one part in `2^22` (plus half the smallest float) for the others,
keeps every alpha exactly and does not touch row padding. -/
theorem C163_unpremultiply_neon (bits : ℚ → ℕ) {img : Image ℚ} (hs : img.validate 4 = .ok ()) (hp : 0 < img.width)
    (hr : ∀ y x, y < img.height → x < img.width → pxD 0 img.buffer (img.strideOf 4) 4 y x 3 = 0 ∨
      1 / 2 ^ 100 ≤ |pxD 0 img.buffer (img.strideOf 4) 4 y x 3| ∧ |pxD 0 img.buffer (img.strideOf 4) 4 y x 3| ≤ 2 ^ 100) :
    ∃ out, (alphaNeonF32 bits).unpremultiply img = some out ∧ SameShape out img ∧ PaddingKept 4 img out ∧
      ∀ y x, y < img.height → x < img.width →
        (∀ c, c < 3 → ∃ v, sample out.buffer (img.strideOf 4) 4 y x c = some v ∧
          (pxD 0 img.buffer (img.strideOf 4) 4 y x 3 = 0 → v = 0) ∧
          (pxD 0 img.buffer (img.strideOf 4) 4 y x 3 ≠ 0 →
            |v - pxD 0 img.buffer (img.strideOf 4) 4 y x c / pxD 0 img.buffer (img.strideOf 4) 4 y x 3| ≤
              |pxD 0 img.buffer (img.strideOf 4) 4 y x c / pxD 0 img.buffer (img.strideOf 4) 4 y x 3| / 2 ^ 22 + 1 / 2 ^ 150)) ∧
        sample out.buffer (img.strideOf 4) 4 y x 3 = some (pxD 0 img.buffer (img.strideOf 4) 4 y x 3) := by
  obtain ⟨out, o1, o2, o3, o4⟩ := unpremultiplyNF_spec bits hs hp
  refine ⟨out, o1, o2, o3, fun y x hy hx => ⟨fun c hc => ⟨_, o4 y x c hy hx (by omega), ?_, ?_⟩, ?_⟩⟩
  · intro h0
    rw [pixelVal, if_pos hc, if_pos h0]
  · intro h0
    rw [pixelVal, if_pos hc, if_neg h0]
    have hb := (hr y x hy hx).resolve_left h0
    generalize pxD 0 img.buffer (img.strideOf 4) 4 y x 3 = a at *
    generalize pxD 0 img.buffer (img.strideOf 4) 4 y x c = v at *
    split_ifs
    · refine (F32.rnd_err_le (v / a)).trans ?_
      have : |v / a| / 2 ^ 24 ≤ |v / a| / 2 ^ 22 := by gcongr <;> norm_num
      linarith
    · exact recip_quot_err hb.1 hb.2
  · rw [o4 y x 3 hy hx (by omega), pixelVal, if_neg (by omega)]
    rfl

example : ∃ out, (alphaNeonF32 (fun _ => 0)).unpremultiply (Demo.flatF 9) = some out ∧
    sample out.buffer 38 4 0 8 3 = some 3 := by
  obtain ⟨out, h, _, _, h'⟩ := C163_unpremultiply_neon (fun _ => 0) (img := Demo.flatF 9) (by decide +kernel) (by decide) (by
    have key : ∀ y < 1, ∀ x < 9, pxD 0 (Demo.flatF 9).buffer ((Demo.flatF 9).strideOf 4) 4 y x 3 = 3 := by decide +kernel
    intro y x hy hx
    rw [key y hy x hx]
    right
    norm_num)
  exact ⟨out, h, (h' 0 8 (by decide) (by decide)).2.trans (by decide +kernel)⟩

/-! ### C164 -/

/-- **C164.** RGBA f32 alpha handling gives the same samples on aarch64 as on an x86 CPU with SSE4.1 and without AVX2: the same
decision whether to premultiply, and bit for bit the same premultiplied and unpremultiplied samples. -/
theorem C164_neon_as_sse (bits : ℚ → ℕ) {src dst : Image ℚ}
    (hs : src.validate 4 = .ok ()) (hd : dst.validate 4 = .ok ())
    (hw : src.width = dst.width) (hh : src.height = dst.height) (hp : 0 < dst.width) :
    (alphaNeonF32 bits).isNeeded src = (alphaX86F32 ⟨true, false⟩ bits).isNeeded src ∧
    (∃ out out', (alphaNeonF32 bits).premultiply src dst = some out ∧
      (alphaX86F32 ⟨true, false⟩ bits).premultiply src dst = some out' ∧
      ∀ y x c, y < dst.height → x < dst.width → c < 4 →
        sample out.buffer (dst.strideOf 4) 4 y x c = sample out'.buffer (dst.strideOf 4) 4 y x c) ∧
    ∃ out out', (alphaNeonF32 bits).unpremultiply dst = some out ∧
      (alphaX86F32 ⟨true, false⟩ bits).unpremultiply dst = some out' ∧
      ∀ y x c, y < dst.height → x < dst.width → c < 4 →
        sample out.buffer (dst.strideOf 4) 4 y x c = sample out'.buffer (dst.strideOf 4) 4 y x c := by
  refine ⟨rfl, ?_, ?_⟩
  · obtain ⟨out, o1, _, _, o4⟩ := premultiplyNF_spec bits hs hd hw hh hp
    obtain ⟨out', p1, _, _, p4⟩ := premultiplyF_spec ⟨true, false⟩ bits hs hd hw hh hp
    exact ⟨out, out', o1, p1, fun y x c hy hx hc => (o4 y x c hy hx hc).trans (p4 y x c hy hx hc).symm⟩
  · obtain ⟨out, o1, _, _, o4⟩ := unpremultiplyNF_spec bits hd hp
    obtain ⟨out', p1, _, _, p4⟩ := unpremultiplyF_spec ⟨true, false⟩ bits hd hp
    exact ⟨out, out', o1, p1, fun y x c hy hx hc => (o4 y x c hy hx hc).trans (p4 y x c hy hx hc).symm⟩

example : ∃ out out', (alphaNeonF32 (fun _ => 0)).unpremultiply (Demo.flatF 9) = some out ∧
    (alphaX86F32 ⟨true, false⟩ (fun _ => 0)).unpremultiply (Demo.flatF 9) = some out' ∧
    sample out.buffer 38 4 0 8 1 = sample out'.buffer 38 4 0 8 1 := by
  obtain ⟨_, _, out, out', h, h', h''⟩ := C164_neon_as_sse (fun _ => 0) (src := Demo.flatF 9) (dst := Demo.flatF 9)
    (by decide +kernel) (by decide +kernel) rfl rfl (by decide)
  exact ⟨out, out', h, h', h'' 0 8 1 (by decide) (by decide) (by decide)⟩

/-! ### C165 -/

/-- **C165, within the vector part.** Two pixels of an RGBA f32 image with the same samples give the same unpremultiplied
samples on aarch64 if both columns are in full blocks of four, or neither is; and in full blocks the result is `c / a`
correctly rounded. Missing: one in a block and one in the remainder (`C165_violated`). -/
theorem C165_columns_neon_partial (bits : ℚ → ℕ) {img : Image ℚ} (hs : img.validate 4 = .ok ()) (hp : 0 < img.width) :
    ∃ out, (alphaNeonF32 bits).unpremultiply img = some out ∧
      (∀ y x y' x', y < img.height → x < img.width → y' < img.height → x' < img.width →
        (∀ c, c < 4 → pxD 0 img.buffer (img.strideOf 4) 4 y x c = pxD 0 img.buffer (img.strideOf 4) 4 y' x' c) →
        (x < img.width / 4 * 4 ↔ x' < img.width / 4 * 4) →
        ∀ c, c < 4 → sample out.buffer (img.strideOf 4) 4 y x c = sample out.buffer (img.strideOf 4) 4 y' x' c) ∧
      ∀ y x c, y < img.height → x < img.width / 4 * 4 → c < 3 →
        pxD 0 img.buffer (img.strideOf 4) 4 y x 3 ≠ 0 → sample out.buffer (img.strideOf 4) 4 y x c =
          some (F32.rnd (pxD 0 img.buffer (img.strideOf 4) 4 y x c / pxD 0 img.buffer (img.strideOf 4) 4 y x 3)) := by
  obtain ⟨out, o1, o2, o3, o4⟩ := unpremultiplyNF_spec bits hs hp
  refine ⟨out, o1, fun y x y' x' hy hx hy' hx' he hv c hc => ?_, fun y x c hy hx hc h0 => ?_⟩
  · rw [o4 y x c hy hx hc, o4 y' x' c hy' hx' hc]
    unfold pixelVal
    dsimp only
    rw [he c hc, he 3 (by omega)]
    simp only [hv]
  · rw [o4 y x c hy (by omega) (by omega), pixelVal, if_pos hc, if_neg h0, if_pos hx]

example : ∃ out, (alphaNeonF32 (fun _ => 0)).unpremultiply (Demo.flatF 5) = some out ∧
    sample out.buffer 22 4 0 0 0 = sample out.buffer 22 4 0 3 0 := by
  obtain ⟨out, h, h', _⟩ := C165_columns_neon_partial (fun _ => 0) (img := Demo.flatF 5) (by decide +kernel) (by decide)
  exact ⟨out, h, h' 0 0 0 3 (by decide) (by decide) (by decide) (by decide) (by decide +kernel) (by decide) 0 (by decide)⟩

/-- **C165 fails between block and remainder**: in a row of five equal pixels with colour 5 and alpha 3, the first and the
last pixel come out different. -/
theorem C165_violated (bits : ℚ → ℕ) :
    ∃ out, (alphaNeonF32 bits).unpremultiply (Demo.flatF 5) = some out ∧
      sample out.buffer 22 4 0 0 0 ≠ sample out.buffer 22 4 0 4 0 := by
  obtain ⟨out, o1, o2, o3, o4⟩ := unpremultiplyNF_spec bits (img := Demo.flatF 5) (by decide +kernel) (by decide)
  refine ⟨out, o1, ?_⟩
  have e1 : sample out.buffer 22 4 0 0 0 = some (F32.rnd (5 / 3)) :=
    (o4 0 0 0 (by decide) (by decide) (by decide)).trans (by decide +kernel)
  have e2 : sample out.buffer 22 4 0 4 0 = some (F32.rnd (5 * F32.rnd (1 / 3))) :=
    (o4 0 4 0 (by decide) (by decide) (by decide)).trans (by decide +kernel)
  rw [e1, e2]
  decide +kernel

end PicScale
