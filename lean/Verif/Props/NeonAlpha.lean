import Verif.Lemmas.NeonAlphaValues
import Verif.SpecNeonAlpha
import Verif.Props.AlphaX86

/-!
Property theorems about RGBA8 alpha handling and the alpha checks on AArch64: C147–C152.
-/

namespace PicScale

open Spec

/-! ### C147: premultiplied colours -/

/-- **C147.** On AArch64, premultiplying any RGBA8 image into any image of the same size succeeds without
leaving a buffer, replaces every colour by `c * a / 255` rounded to nearest and does not touch row padding. -/
theorem C147_premultiply_neon {src dst : Image ℕ} (hs : src.validate 4 = .ok ()) (hd : dst.validate 4 = .ok ())
    (hw : src.width = dst.width) (hh : src.height = dst.height) (hp : 0 < dst.width)
    (hb : ∀ v ∈ src.buffer, v ≤ 255) :
    ∃ out, alphaNeonU8.premultiply src dst = some out ∧ SameShape out dst ∧ PaddingKept 4 dst out ∧
      ∀ y x c, y < dst.height → x < dst.width → c < 3 →
        sample out.buffer (dst.strideOf 4) 4 y x c =
          some (roundDiv (pxD 0 src.buffer (src.strideOf 4) 4 y x c * alphaAt src.buffer (src.strideOf 4) y x) 255) := by
  obtain ⟨out, o1, o2, o3, o4⟩ := premultiplyImageWith_spec_x premulRowNeon_ok hs hd hw hh hp
  refine ⟨out, o1, o2, o3, fun y x c hy hx hc => ?_⟩
  rw [o4 y x c hy hx (by omega), pixelVal, if_pos hc]
  have h1 := pxD_le255' hb y x c
  have h2 := pxD_le255' hb y x 3
  split_ifs
  · exact congrArg some (neonDiv255_eq h1 h2)
  · exact congrArg some (C31_division.1 _ _ h1 h2)

example : ∃ out, alphaNeonU8.premultiply Demo.asrc Demo.adst = some out ∧ sample out.buffer 10 4 0 0 0 = some 100 := by
  obtain ⟨out, h, _, _, h'⟩ := C147_premultiply_neon (src := Demo.asrc) (dst := Demo.adst) (by decide) (by decide)
    rfl rfl (by decide) (by decide)
  refine ⟨out, h, ?_⟩
  have := h' 0 0 0 (by decide) (by decide) (by decide)
  refine this.trans ?_
  decide +kernel

/-- **C147**, second part: the colours are those of the portable code. -/
theorem C147_portable {src dst out out' : Image ℕ} (hs : src.validate 4 = .ok ()) (hd : dst.validate 4 = .ok ())
    (hw : src.width = dst.width) (hh : src.height = dst.height) (hp : 0 < dst.width)
    (hb : ∀ v ∈ src.buffer, v ≤ 255) (ho : alphaNeonU8.premultiply src dst = some out)
    (ho' : alphaU8.premultiply src dst = some out') :
    ∀ y x c, y < dst.height → x < dst.width → c < 3 →
      sample out.buffer (dst.strideOf 4) 4 y x c = sample out'.buffer (dst.strideOf 4) 4 y x c := by
  obtain ⟨o, o1, _, _, o4⟩ := C147_premultiply_neon hs hd hw hh hp hb
  obtain ⟨o', o1', _, _, o4'⟩ := C32_premultiply_partial hs hd hw hh hp hb
  obtain rfl : o = out := by rw [o1] at ho; simpa using ho
  obtain rfl : o' = out' := by rw [o1'] at ho'; simpa using ho'
  intro y x c hy hx hc
  rw [o4 y x c hy hx hc, (o4' y x hy hx).1 c hc]

example : ∃ out, alphaU8.premultiply Demo.asrc Demo.adst = some out := by
  obtain ⟨out, h, _⟩ := C32_premultiply_partial (src := Demo.asrc) (dst := Demo.adst) (by decide) (by decide)
    rfl rfl (by decide) (by decide)
  exact ⟨out, h⟩

/-! ### C148: premultiplied alpha -/

/-- Premultiplication on AArch64, alpha included. -/
theorem premultiply_neon {src dst : Image ℕ} (hs : src.validate 4 = .ok ()) (hd : dst.validate 4 = .ok ())
    (hw : src.width = dst.width) (hh : src.height = dst.height) (hp : 0 < dst.width)
    (hb : ∀ v ∈ src.buffer, v ≤ 255) :
    ∃ out, alphaNeonU8.premultiply src dst = some out ∧
      ∀ y x, y < dst.height → x < dst.width →
        sample out.buffer (dst.strideOf 4) 4 y x 3 =
          some (if x < dst.width / 16 * 16 then alphaAt src.buffer (src.strideOf 4) y x
            else roundDiv (alphaAt src.buffer (src.strideOf 4) y x * alphaAt src.buffer (src.strideOf 4) y x) 255) := by
  obtain ⟨out, o1, o2, o3, o4⟩ := premultiplyImageWith_spec_x premulRowNeon_ok hs hd hw hh hp
  refine ⟨out, o1, fun y x hy hx => ?_⟩
  rw [o4 y x 3 hy hx (by omega), pixelVal, if_neg (by omega)]
  have h2 := pxD_le255' hb y x 3
  split_ifs
  · rfl
  · exact congrArg some (C31_division.1 _ _ h2 h2)

/-- **C148.** Premultiplication on AArch64 keeps alpha in the first `width / 16 * 16` columns: in the whole image if
the width is a multiple of 16. Missing: the other columns (`C148_violated`). -/
theorem C148_alpha_kept_partial {src dst : Image ℕ} (hs : src.validate 4 = .ok ()) (hd : dst.validate 4 = .ok ())
    (hw : src.width = dst.width) (hh : src.height = dst.height) (hp : 0 < dst.width)
    (hb : ∀ v ∈ src.buffer, v ≤ 255) :
    ∃ out, alphaNeonU8.premultiply src dst = some out ∧
      ∀ y x, y < dst.height → x < dst.width / 16 * 16 →
        sample out.buffer (dst.strideOf 4) 4 y x 3 = some (alphaAt src.buffer (src.strideOf 4) y x) := by
  obtain ⟨out, o1, o2⟩ := premultiply_neon hs hd hw hh hp hb
  refine ⟨out, o1, fun y x hy hx => ?_⟩
  rw [o2 y x hy (by omega), if_pos hx]

/-- A row of 17 equal pixels of alpha 128. -/
def Demo.row17 : Image ℕ :=
  { buffer := List.replicate 68 128, channels := 4, width := 17, height := 1, stride := 68, bitDepth := 8 }

example : ∃ out, alphaNeonU8.premultiply Demo.row17 Demo.row17 = some out ∧ sample out.buffer 68 4 0 15 3 = some 128 := by
  obtain ⟨out, h, h'⟩ := C148_alpha_kept_partial (src := Demo.row17) (dst := Demo.row17) (by decide) (by decide) rfl rfl
    (by decide) (by decide)
  refine ⟨out, h, (h' 0 15 (by decide) (by decide)).trans ?_⟩
  decide +kernel

/-- **C148 fails in the last `width % 16` columns**: in a row of 17 equal pixels of alpha 128 the last one has
alpha 64 after premultiplication, the others 128. Whatever the image, alpha survives in those columns only if it is
0 or 255. -/
theorem C148_violated : (∃ out, alphaNeonU8.premultiply Demo.row17 Demo.row17 = some out ∧
      sample out.buffer 68 4 0 15 3 = some 128 ∧ sample out.buffer 68 4 0 16 3 = some 64) ∧
    ∀ {src dst : Image ℕ}, src.validate 4 = .ok () → dst.validate 4 = .ok () → src.width = dst.width →
      src.height = dst.height → 0 < dst.width → (∀ v ∈ src.buffer, v ≤ 255) →
      ∃ out, alphaNeonU8.premultiply src dst = some out ∧
        ∀ y x, y < dst.height → dst.width / 16 * 16 ≤ x → x < dst.width →
          (sample out.buffer (dst.strideOf 4) 4 y x 3 = some (alphaAt src.buffer (src.strideOf 4) y x) ↔
            alphaAt src.buffer (src.strideOf 4) y x = 0 ∨ alphaAt src.buffer (src.strideOf 4) y x = 255) := by
  constructor
  · obtain ⟨out, h, h'⟩ := premultiply_neon (src := Demo.row17) (dst := Demo.row17) (by decide) (by decide) rfl rfl
      (by decide) (by decide)
    refine ⟨out, h, (h' 0 15 (by decide) (by decide)).trans (by decide +kernel),
      (h' 0 16 (by decide) (by decide)).trans (by decide +kernel)⟩
  · intro src dst hs hd hw hh hp hb
    obtain ⟨out, o1, o2⟩ := premultiply_neon hs hd hw hh hp hb
    refine ⟨out, o1, fun y x hy hx hx' => ?_⟩
    rw [o2 y x hy hx', if_neg (by omega), Option.some.injEq]
    exact C32_alpha_kept_iff _ (pxD_le255' hb y x 3)

/-! ### C149: unpremultiplication -/

theorem unpremulNeon_ok {c a : ℕ} (hc : c ≤ 255) (ha : a ≤ 255) : UnpremultipliedEst c a (unpremulNeon c a) := by
  refine ⟨fun h => ?_, fun h => ?_, fun h => ?_⟩
  · unfold unpremulNeon; rw [if_pos h]
  · unfold unpremulNeon; rw [if_neg (by omega), h]; exact unpremulLaneN_opaque hc
  · unfold unpremulNeon; rw [if_neg h]; exact unpremulLaneN_err hc (by omega) ha

/-- The values stored by unpremultiplication, for samples that need not be bytes outside the pixels. -/
theorem unpremultiply_neon {img : Image ℕ} (hd : img.validate 4 = .ok ()) (hp : 0 < img.width)
    (hle : ∀ y x c, y < img.height → x < img.width → c < 4 → pxD 0 img.buffer (img.strideOf 4) 4 y x c ≤ 255) :
    ∃ out, alphaNeonU8.unpremultiply img = some out ∧ SameShape out img ∧ PaddingKept 4 img out ∧
      ∀ y x, y < img.height → x < img.width →
        (∀ c, c < 3 → ∃ v, sample out.buffer (img.strideOf 4) 4 y x c = some v ∧
          UnpremultipliedEst (pxD 0 img.buffer (img.strideOf 4) 4 y x c) (alphaAt img.buffer (img.strideOf 4) y x) v) ∧
        sample out.buffer (img.strideOf 4) 4 y x 3 = some (alphaAt img.buffer (img.strideOf 4) y x) := by
  obtain ⟨out, o1, o2, o3, o4⟩ := unpremultiplyImageWith_spec unpremulRowNeon_ok hd hp
  refine ⟨out, o1, o2, o3, fun y x hy hx => ⟨fun c hc => ⟨_, o4 y x c hy hx (by omega), ?_⟩, ?_⟩⟩
  · rw [pixelVal, if_pos hc]
    exact unpremulNeon_ok (hle y x c hy hx (by omega)) (hle y x 3 hy hx (by omega))
  · rw [o4 y x 3 hy hx (by omega), pixelVal, if_neg (by omega)]; rfl

/-- **C149.** On AArch64, unpremultiplying any RGBA8 image succeeds without leaving a buffer, replaces every colour
by `min(255, 255 c / a)` to within 5/4 (0 for a transparent pixel, the colour itself for an opaque one; out of
range colours saturate), keeps alpha and does not touch row padding. -/
theorem C149_unpremultiply_neon {img : Image ℕ} (hd : img.validate 4 = .ok ()) (hp : 0 < img.width)
    (hb : ∀ v ∈ img.buffer, v ≤ 255) :
    ∃ out, alphaNeonU8.unpremultiply img = some out ∧ SameShape out img ∧ PaddingKept 4 img out ∧
      ∀ y x, y < img.height → x < img.width →
        (∀ c, c < 3 → ∃ v, sample out.buffer (img.strideOf 4) 4 y x c = some v ∧
          UnpremultipliedEst (pxD 0 img.buffer (img.strideOf 4) 4 y x c) (alphaAt img.buffer (img.strideOf 4) y x) v) ∧
        sample out.buffer (img.strideOf 4) 4 y x 3 = some (alphaAt img.buffer (img.strideOf 4) y x) :=
  unpremultiply_neon hd hp fun y x c _ _ _ => pxD_le255' hb y x c

example : ∃ out, alphaNeonU8.unpremultiply Demo.apre = some out ∧ PaddingKept 4 Demo.apre out := by
  obtain ⟨out, h, _, h', _⟩ := C149_unpremultiply_neon (img := Demo.apre) (by decide) (by decide) (by decide)
  exact ⟨out, h, h'⟩

/-! ### C150: the portable code -/

theorem unpremulNeon_portable {c a : ℕ} (hca : c ≤ a) (ha : a ≤ 255) :
    |((unpremulNeon c a : ℕ) : ℤ) - (unpremulTable (a * 255 + c) : ℕ)| ≤ 1 := by
  rw [unpremul_value ha hca]
  unfold unpremulNeon
  by_cases h0 : a = 0
  · rw [if_pos h0, if_pos h0]; norm_num
  · rw [if_neg h0, if_neg h0]
    have h1 := unpremulLaneN_err (c := c) (a := a) (by omega) (by omega) ha
    have h2 := roundDiv_err (c * 255) a
    have haq : (0 : ℚ) < a := by exact_mod_cast (by omega : 0 < a)
    have hcq : (c : ℚ) ≤ a := by exact_mod_cast hca
    have h3 : 255 * (c : ℚ) / a ≤ 255 := by rw [div_le_iff₀ haq]; linarith
    rw [min_eq_right h3] at h1
    push_cast at h2
    rw [mul_comm (c : ℚ) 255] at h2
    have h4 : |((unpremulLaneN c a : ℕ) : ℚ) - (roundDiv (c * 255) a : ℕ)| < 2 := by
      rw [abs_le] at h1 h2
      rw [abs_lt]
      constructor <;> linarith
    have h5 : |((unpremulLaneN c a : ℕ) : ℤ) - (roundDiv (c * 255) a : ℕ)| < 2 := by exact_mod_cast h4
    omega

/-- **C150.** Unpremultiplying an image whose colours are at most their alpha, AArch64 and portable code give colours that
differ by at most one level and the same alpha. Missing: equality (`C150_violated`). -/
theorem C150_portable_partial {img out out' : Image ℕ} (hd : img.validate 4 = .ok ()) (hp : 0 < img.width)
    (hb : ∀ v ∈ img.buffer, v ≤ 255)
    (hpre : ∀ y x c, y < img.height → x < img.width → c < 3 →
      pxD 0 img.buffer (img.strideOf 4) 4 y x c ≤ alphaAt img.buffer (img.strideOf 4) y x)
    (ho : alphaNeonU8.unpremultiply img = some out) (ho' : alphaU8.unpremultiply img = some out') :
    ∀ y x, y < img.height → x < img.width →
      (∀ c, c < 3 → ∃ v w, sample out.buffer (img.strideOf 4) 4 y x c = some v ∧
        sample out'.buffer (img.strideOf 4) 4 y x c = some w ∧ |(v : ℤ) - (w : ℕ)| ≤ 1) ∧
      sample out.buffer (img.strideOf 4) 4 y x 3 = sample out'.buffer (img.strideOf 4) 4 y x 3 := by
  obtain ⟨o, o1, _, _, o4⟩ := unpremultiplyImageWith_spec unpremulRowNeon_ok hd hp
  obtain ⟨o', o1', _, _, o4'⟩ := unpremultiplyImage_spec (fun c a => unpremulTable (a * 255 + c)) (fun a => a) 0 hd hp
  obtain rfl : o = out := by
    rw [show alphaNeonU8.unpremultiply img = unpremultiplyImageWith unpremulRowNeon img from rfl, o1] at ho
    simpa using ho
  obtain rfl : o' = out' := by
    have : alphaU8.unpremultiply img = some o' := o1'
    rw [this] at ho'
    simpa using ho'
  intro y x hy hx
  refine ⟨fun c hc => ⟨_, _, o4 y x c hy hx (by omega), o4' y x c hy hx (by omega), ?_⟩, ?_⟩
  · rw [pixelVal, if_pos hc, pixelVal, if_pos hc]
    exact unpremulNeon_portable (hpre y x c hy hx hc) (pxD_le255' hb y x 3)
  · rw [o4 y x 3 hy hx (by omega), o4' y x 3 hy hx (by omega), pixelVal, if_neg (by omega), pixelVal, if_neg (by omega)]

example : ∀ y x c, y < Demo.apre.height → x < Demo.apre.width → c < 3 →
    pxD 0 Demo.apre.buffer (Demo.apre.strideOf 4) 4 y x c ≤ alphaAt Demo.apre.buffer (Demo.apre.strideOf 4) y x := by
  have : ∀ y < 1, ∀ x < 2, ∀ c < 3, pxD 0 Demo.apre.buffer (Demo.apre.strideOf 4) 4 y x c ≤
      alphaAt Demo.apre.buffer (Demo.apre.strideOf 4) y x := by decide
  exact fun y x c hy hx hc => this y hy x hx c hc

/-- A pixel of colour 133 and alpha 143. -/
def Demo.a143 : Image ℕ :=
  { buffer := [133, 0, 0, 143], channels := 4, width := 1, height := 1, stride := 4, bitDepth := 8 }

/-- **C150 fails as an equality**: premultiplied colour 133 with alpha 143 is 237.2 straight. The portable code says 237,
AArch64 236: its reciprocal estimate has 8 bits. -/
theorem C150_violated : ∃ out out', alphaNeonU8.unpremultiply Demo.a143 = some out ∧ alphaU8.unpremultiply Demo.a143 = some out' ∧
    sample out.buffer 4 4 0 0 0 = some 236 ∧ sample out'.buffer 4 4 0 0 0 = some 237 := by
  obtain ⟨o, o1, _, _, o4⟩ := unpremultiplyImageWith_spec unpremulRowNeon_ok (img := Demo.a143) (by decide) (by decide)
  obtain ⟨o', o1', _, _, o4'⟩ := unpremultiplyImage_spec (fun c a => unpremulTable (a * 255 + c)) (fun a => a) 0
    (img := Demo.a143) (by decide) (by decide)
  refine ⟨o, o', o1, o1', (o4 0 0 0 (by decide) (by decide) (by decide)).trans (by decide +kernel),
    (o4' 0 0 0 (by decide) (by decide) (by decide)).trans ?_⟩
  show some (unpremulTable (143 * 255 + 133)) = _
  rw [unpremul_value (by norm_num) (by norm_num)]
  decide +kernel

/-- A pixel of premultiplied white, alpha 39. -/
def Demo.white39 : Image ℕ :=
  { buffer := [39, 39, 39, 39], channels := 4, width := 1, height := 1, stride := 4, bitDepth := 8 }

/-- **C150 fails for white**: white with alpha 39 comes out as 254; the portable code says 255. -/
theorem C150_violated_white : ∃ out out', alphaNeonU8.unpremultiply Demo.white39 = some out ∧
    alphaU8.unpremultiply Demo.white39 = some out' ∧
    sample out.buffer 4 4 0 0 0 = some 254 ∧ sample out'.buffer 4 4 0 0 0 = some 255 := by
  obtain ⟨o, o1, _, _, o4⟩ := unpremultiplyImageWith_spec unpremulRowNeon_ok (img := Demo.white39) (by decide) (by decide)
  obtain ⟨o', o1', _, _, o4'⟩ := unpremultiplyImage_spec (fun c a => unpremulTable (a * 255 + c)) (fun a => a) 0
    (img := Demo.white39) (by decide) (by decide)
  refine ⟨o, o', o1, o1', (o4 0 0 0 (by decide) (by decide) (by decide)).trans (by decide +kernel),
    (o4' 0 0 0 (by decide) (by decide) (by decide)).trans ?_⟩
  show some (unpremulTable (39 * 255 + 39)) = _
  rw [unpremul_value (by norm_num) (by norm_num)]
  decide +kernel

/-! ### C151, C152: the alpha checks -/

/-- **C151.** On AArch64 the check that decides whether an RGBA8 image needs premultiplication says so iff two pixels
differ in alpha, for images of up to 2^23 pixels per row. Row padding does not matter. Missing: wider images
(`C151_violated`). -/
theorem C151_alpha_check_partial {img : Image ℕ} (hv : img.validate 4 = .ok ()) (hw : 0 < img.width) (hh : 0 < img.height)
    (hb : ∀ v ∈ img.buffer, v ≤ 255) (hw' : img.width ≤ 2 ^ 23) :
    alphaNeonU8.isNeeded img = true ↔ AlphaVaries img := by
  obtain ⟨hl, hs⟩ := validate_facts hv
  show alphaVariesBy neonAlphaRow8 _ _ _ = true ↔ _
  rw [neonAlphaRow8_ok.varies]
  exact alphaVariesBy_iff (k := 8) (neonAlphaRow8_ok.ok _) hl hs hw hh (fun v hv => by have := hb v hv; omega) (by norm_num; omega)

example : AlphaVaries Demo.asrc :=
  (C151_alpha_check_partial (by decide) (by decide) (by decide) (by decide) (by decide)).1 (by decide +kernel)

/-- **C152.** On AArch64 the same check for RGBA16 says so iff two pixels differ in alpha, for images of up to 32768
pixels per row. Missing: wider images (`C152_violated`). -/
theorem C152_alpha_check_partial {img : Image ℕ} (hv : img.validate 4 = .ok ()) (hw : 0 < img.width) (hh : 0 < img.height)
    (hb : ∀ v ∈ img.buffer, v ≤ 65535) (hw' : img.width ≤ 32768) :
    alphaNeededNeonU16 img = true ↔ AlphaVaries img := by
  obtain ⟨hl, hs⟩ := validate_facts hv
  unfold alphaNeededNeonU16
  rw [neonAlphaRow16_ok.varies]
  exact alphaVariesBy_iff (k := 16) (neonAlphaRow16_ok.ok _) hl hs hw hh (fun v hv => by have := hb v hv; omega) (by norm_num; omega)

example : AlphaVaries Demo.asrc16 :=
  (C152_alpha_check_partial (by decide) (by decide) (by decide) (by decide) (by decide)).1 (by decide +kernel)

/-- Two rows of `n` pixels: all samples 0 in the first row, `v` in the second. -/
def Demo.wide (n v : ℕ) : Image ℕ :=
  { buffer := List.replicate (4 * n) 0 ++ List.replicate (4 * n) v, channels := 4, width := n, height := 2,
    stride := 4 * n, bitDepth := 16 }

theorem wide_strideOf {n v : ℕ} (hn : 0 < n) : (Demo.wide n v).strideOf 4 = 4 * n := by
  unfold Image.strideOf Demo.wide
  dsimp only
  rw [if_neg (by omega)]

theorem wide_validate {n v : ℕ} (hn : 0 < n) : (Demo.wide n v).validate 4 = .ok () := by
  have hlen : (Demo.wide n v).buffer.length = 4 * n * 2 := by
    unfold Demo.wide
    dsimp only
    rw [List.length_append, List.length_replicate, List.length_replicate, Nat.mul_two]
  unfold Image.validate
  rw [hlen, wide_strideOf hn]
  have h1 : (Demo.wide n v).height = 2 := rfl
  have h2 : (Demo.wide n v).width = n := rfl
  have h3 : (Demo.wide n v).stride = 4 * n := rfl
  rw [h1, h2]
  dsimp only
  rw [if_neg (by simp), if_neg (by simp; omega)]

theorem wide_mem {n v u : ℕ} (hu : u ∈ (Demo.wide n v).buffer) : u = 0 ∨ u = v := by
  unfold Demo.wide at hu
  rcases List.mem_append.1 hu with h | h
  · exact Or.inl (List.eq_of_mem_replicate h)
  · exact Or.inr (List.eq_of_mem_replicate h)

theorem wide_varies {n v : ℕ} (hn : 0 < n) (hv : v ≠ 0) : AlphaVaries (Demo.wide n v) := by
  refine ⟨0, 0, 1, 0, Nat.zero_lt_two, hn, Nat.one_lt_two, hn, ?_⟩
  rw [wide_strideOf hn]
  unfold alphaAt pxD sample Demo.wide
  dsimp only
  rw [List.getElem?_append_left (by rw [List.length_replicate]; omega), List.getElem?_replicate, if_pos (by omega),
    List.getElem?_append_right (by rw [List.length_replicate]; omega), List.length_replicate, List.getElem?_replicate,
      if_pos (by omega)]
  simpa using fun h => hv h.symm

/-- A check whose row sums are 0 for both rows does not see the difference. -/
theorem wide_missed {n v : ℕ} (hn : 0 < n) {rowSum : ℕ → List ℕ → ℤ} (h0 : rowSum 0 (List.replicate (4 * n) 0) = 0)
    (h1 : rowSum 0 (List.replicate (4 * n) v) = 0) :
    alphaVariesBy rowSum (Demo.wide n v).buffer (Demo.wide n v).width ((Demo.wide n v).strideOf 4) = false := by
  rw [wide_strideOf hn]
  have e1 : chunksExact (4 * n) (Demo.wide n v).buffer = [List.replicate (4 * n) 0, List.replicate (4 * n) v] := by
    unfold chunksExact Demo.wide
    have hl : (List.replicate (4 * n) 0 ++ List.replicate (4 * n) v).length / (4 * n) = 2 := by
      rw [List.length_append, List.length_replicate, List.length_replicate, ← Nat.two_mul, Nat.mul_div_cancel _ (by omega)]
    dsimp only
    rw [hl]
    have h0 : ((List.replicate (4 * n) 0 ++ List.replicate (4 * n) v).drop (0 * (4 * n))).take (4 * n) = List.replicate (4 * n) 0 := by
      rw [Nat.zero_mul, List.drop_zero, List.take_left' (List.length_replicate ..)]
    have h1 : ((List.replicate (4 * n) 0 ++ List.replicate (4 * n) v).drop (1 * (4 * n))).take (4 * n) = List.replicate (4 * n) v := by
      rw [Nat.one_mul, List.drop_left' (List.length_replicate ..), List.take_of_length_le (by rw [List.length_replicate])]
    rw [show List.range 2 = [0, 1] from rfl, List.map_cons, List.map_cons, List.map_nil, h0, h1]
  have e2 : (Demo.wide n v).buffer.getD 3 0 = 0 := by
    unfold Demo.wide
    dsimp only
    rw [List.getD_eq_getElem?_getD, List.getElem?_append_left (by rw [List.length_replicate]; omega), List.getElem?_replicate,
      if_pos (by omega), Option.getD_some]
  have e3 : (Demo.wide n v).buffer ≠ [] := by
    intro h0
    rw [h0] at e1
    simp [chunksExact] at e1
  unfold alphaVariesBy
  rw [if_neg e3, e1, e2]
  have ht : ∀ u : ℕ, (List.replicate (4 * n) u).take ((Demo.wide n v).width * 4) = List.replicate (4 * n) u := by
    intro u
    have : (Demo.wide n v).width = n := rfl
    rw [this, List.take_of_length_le (by rw [List.length_replicate]; omega)]
  simp only [List.any_cons, List.any_nil, ht, h0, h1]
  rfl

/-- **C151 fails for enormous widths**: the row sums are 32 bits wide. In a row of 2^25 pixels (or any multiple) whose
alpha is 128 where the first row has 0, the sum is a multiple of `2^32`, and the image counts as one of constant
alpha. -/
theorem C151_violated {n : ℕ} (hn : 0 < n) (hn' : n % 2 ^ 25 = 0) :
    (Demo.wide n 128).validate 4 = .ok () ∧ (∀ v ∈ (Demo.wide n 128).buffer, v ≤ 255) ∧ AlphaVaries (Demo.wide n 128) ∧
    alphaNeonU8.isNeeded (Demo.wide n 128) = false := by
  refine ⟨wide_validate hn, fun v hv => by rcases wide_mem hv with h | h <;> omega, wide_varies hn (by norm_num), ?_⟩
  have key : ∀ v, n * v % 2 ^ 32 = 0 → neonAlphaRow8 0 (List.replicate (4 * n) v) = 0 := by
    intro v hv
    rw [neonAlphaRow8_exact (by rw [List.length_replicate]; omega), alphaSum_replicate, Nat.xor_zero, hv]
    rfl
  refine wide_missed hn (key 0 (by simp)) (key 128 ?_)
  omega

example : AlphaVaries (Demo.wide (2 ^ 25) 128) := (C151_violated (by norm_num) (by norm_num)).2.2.1

/-- **C152 fails for wide images**: in a row of 131072 pixels (or any multiple) whose alpha differs by 32768 from that
of the first row the differences add up to a multiple of `2^32`. -/
theorem C152_violated {n : ℕ} (hn : 0 < n) (hn' : n % 131072 = 0) :
    (Demo.wide n 32768).validate 4 = .ok () ∧ (∀ v ∈ (Demo.wide n 32768).buffer, v ≤ 65535) ∧ AlphaVaries (Demo.wide n 32768) ∧
    alphaNeededNeonU16 (Demo.wide n 32768) = false := by
  refine ⟨wide_validate hn, fun v hv => by rcases wide_mem hv with h | h <;> omega, wide_varies hn (by norm_num), ?_⟩
  have key : ∀ v, n * v % 2 ^ 32 = 0 → neonAlphaRow16 0 (List.replicate (4 * n) v) = 0 := by
    intro v hv
    rw [neonAlphaRow16_exact (by rw [List.length_replicate]; omega), alphaSum_replicate, Nat.xor_zero, hv]
    rfl
  refine wide_missed hn (key 0 (by simp)) (key 32768 ?_)
  omega

example : AlphaVaries (Demo.wide 131072 32768) := (C152_violated (by norm_num) (by norm_num)).2.2.1

end PicScale
