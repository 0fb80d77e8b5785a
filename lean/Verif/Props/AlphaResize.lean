import Verif.Lemmas.AlphaResize
import Verif.Props.Alpha

/-!
Property theorems about resize calls with alpha premultiplication: C38, C46, C47.
-/

namespace PicScale

open Spec

theorem alphaOK_u8 (d : ℕ) : AlphaOK alphaU8 d (· ≤ 255) (fun c a => divBy255 (c * a))
    (fun c a => unpremulTable (a * 255 + c)) (fun a => divBy255 (a * a)) (fun a => a) where
  pre := fun _ _ _ => rfl
  unp := fun _ _ => rfl
  good_c := fun _ _ _ _ => by unfold divBy255; omega
  good_a := fun _ _ => by unfold divBy255; omega

/-- The 8-bit separable resize of one channel `p` with quantised tables `qv`, `qh` (see C21). -/
def resized8 (store into : Image ℕ) (qv qh : FilterWeights ℤ) (p : ℕ → ℕ → ℕ) (y x : ℕ) : ℕ :=
  separable store.width store.height into.width into.height
    (fun i => (qv.bound i).start)
    (fun i p => fixedFloor 255 (qv.bound i).size (fun k => qv.weight i k) p)
    (fun i => (qh.bound i).start)
    (fun i p => fixedRound 255 (qh.bound i).size (fun k => qh.weight i k) p) p y x

/-- Everything about an accepted RGBA8 resize with `premultiply_alpha = true`. -/
theorem rgba8_premultiplied {W : ℕ} {L : Lib} {r : ResamplingFunction} {store into : Image ℕ}
    (h : Accepted W 4 L r store into) (hfit : store.width * store.height * 4 < W) :
    ∃ qv qh out, IsTable L r store.height into.height qv ∧ IsTable L r store.width into.width qh ∧
      genericResizeWithAlpha W 4 (formatU8 4) alphaU8 L r store into true = some (.ok (), out) ∧
      SameShape out into ∧ PaddingKept 4 into out ∧
      ∀ y x c, y < into.height → x < into.width → c < 4 →
        sample out.buffer (into.strideOf 4) 4 y x c = some (pixelVal (fun c a => unpremulTable (a * 255 + c)) (fun a => a)
          (fun c => resized8 store into qv qh (fun y x => workPicture (alphaU8.isNeeded store)
            (fun c a => divBy255 (c * a)) (fun a => divBy255 (a * a))
            (fun y x c => pxD 0 store.buffer (store.strideOf 4) 4 y x c) y x c) y x) c) := by
  obtain ⟨c1, c2, c3, _⟩ := checkResize_ok.1 h.checked
  obtain ⟨vf, ev, Tv, Sv⟩ := table_exists L r (out := into.height) c3.2.1 h.small.2 (fun ha => (h.area ha).2)
  obtain ⟨hf, eh, Th, Sh⟩ := table_exists L r (out := into.width) c3.1 h.small.1 (fun ha => (h.area ha).1)
  obtain ⟨out, o1, o2, o3, o4⟩ := withAlpha_spec (W := W) (passOK_u8 (by norm_num) into.bitDepth)
    (alphaOK_u8 into.bitDepth) h.checked h.filter rfl h.sizes h.fits hfit ev eh Tv Th
    ⟨Sv, h.noOverflow.1 _ ⟨vf, ev, rfl⟩⟩ ⟨Sh, h.noOverflow.2 _ ⟨hf, eh, rfl⟩⟩ h.bytes (by norm_num [formatU8])
  exact ⟨_, _, out, ⟨vf, ev, rfl⟩, ⟨hf, eh, rfl⟩, o1, o2, o3, o4⟩

theorem resized8_congr {store into : Image ℕ} {qv qh : FilterWeights ℤ} {p p' : ℕ → ℕ → ℕ} (h : p = p') (y x : ℕ) :
    resized8 store into qv qh p y x = resized8 store into qv qh p' y x := by rw [h]

theorem isNeeded_u8 {W : ℕ} {L : Lib} {r : ResamplingFunction} {store into : Image ℕ}
    (h : Accepted W 4 L r store into) : alphaU8.isNeeded store = true ↔ AlphaVaries store := by
  obtain ⟨c1, c2, c3, _⟩ := checkResize_ok.1 h.checked
  exact (C37_alpha_check c2 c3.1 c3.2.1).1 h.bytes (by have := h.small.1; omega)

theorem pxD_le {buf : List ℕ} {B : ℕ} (h : ∀ v ∈ buf, v ≤ B) (stride N y x c : ℕ) : pxD 0 buf stride N y x c ≤ B := by
  simp only [pxD, sample]
  exact getD_le_of_forall h _

/-- **C46.** RGBA8 with `premultiply_alpha = true` and varying alpha: the call succeeds, and each output
pixel is obtained by resizing the four channels of the *premultiplied* picture (each sample, alpha
included, multiplied by alpha over 255 and rounded) and dividing the colours by the resized alpha:
the alpha is the resized alpha, and each resized colour `p` not above the resized alpha `a` becomes
`round(255 p / a)` (0 if `a = 0`). Padding is kept. -/
theorem C46_alpha_pipeline {W : ℕ} {L : Lib} {r : ResamplingFunction} {store into : Image ℕ}
    (h : Accepted W 4 L r store into) (hfit : store.width * store.height * 4 < W) (hvar : AlphaVaries store) :
    ∃ qv qh out, IsTable L r store.height into.height qv ∧ IsTable L r store.width into.width qh ∧
      genericResizeWithAlpha W 4 (formatU8 4) alphaU8 L r store into true = some (.ok (), out) ∧
      SameShape out into ∧ PaddingKept 4 into out ∧
      ∀ y x, y < into.height → x < into.width → ∀ R : ℕ → ℕ,
        (∀ c, R c = resized8 store into qv qh (fun y x =>
          roundDiv (pxD 0 store.buffer (store.strideOf 4) 4 y x c * alphaAt store.buffer (store.strideOf 4) y x) 255) y x) →
        sample out.buffer (into.strideOf 4) 4 y x 3 = some (R 3) ∧
        ∀ c, c < 3 → R c ≤ R 3 →
          sample out.buffer (into.strideOf 4) 4 y x c = some (if R 3 = 0 then 0 else roundDiv (R c * 255) (R 3)) := by
  obtain ⟨qv, qh, out, tv, th, o1, o2, o3, o4⟩ := rgba8_premultiplied h hfit
  have hn : alphaU8.isNeeded store = true := (isNeeded_u8 h).2 hvar
  refine ⟨qv, qh, out, tv, th, o1, o2, o3, fun y x hy hx R hR => ?_⟩
  have hle := fun y x c => pxD_le h.bytes (store.strideOf 4) 4 y x c
  have hw : ∀ c, c < 4 → (fun y x => workPicture (alphaU8.isNeeded store)
            (fun c a => divBy255 (c * a)) (fun a => divBy255 (a * a))
            (fun y x c => pxD 0 store.buffer (store.strideOf 4) 4 y x c) y x c) = fun y x =>
          roundDiv (pxD 0 store.buffer (store.strideOf 4) 4 y x c * alphaAt store.buffer (store.strideOf 4) y x) 255 := by
    intro c hc
    funext y x
    simp only [workPicture, hn, if_true, pixelVal]
    split_ifs with h3
    · rw [C31_division.1 _ _ (hle _ _ _) (hle _ _ _)]; rfl
    · have : c = 3 := by omega
      subst this
      rw [C31_division.1 _ _ (hle _ _ _) (hle _ _ _)]; rfl
  have hR' : ∀ c, c < 4 → resized8 store into qv qh (fun y x => workPicture (alphaU8.isNeeded store)
            (fun c a => divBy255 (c * a)) (fun a => divBy255 (a * a))
            (fun y x c => pxD 0 store.buffer (store.strideOf 4) 4 y x c) y x c) y x = R c := by
    intro c hc
    rw [hR c, resized8_congr (hw c hc)]
  constructor
  · rw [o4 y x 3 hy hx (by omega)]
    simp only [pixelVal, if_neg (show ¬ 3 < 3 by omega)]
    rw [hR' 3 (by omega)]
  · intro c hc hca
    rw [o4 y x c hy hx (by omega)]
    simp only [pixelVal, if_pos hc]
    rw [hR' c (by omega), hR' 3 (by omega), unpremul_value ?_ hca]
    rw [hR 3]
    unfold resized8 separable
    simp only
    have hp : ∀ y x, roundDiv (pxD 0 store.buffer (store.strideOf 4) 4 y x 3 * alphaAt store.buffer (store.strideOf 4) y x) 255 ≤ 255 := by
      intro y x
      unfold alphaAt
      rw [← C31_division.1 _ _ (hle _ _ _) (hle _ _ _)]
      unfold divBy255; omega
    split_ifs
    · exact hp _ _
    · exact clamp_le _ _
    · exact clamp_le _ _
    · exact clamp_le _ _

/-! ### C38 -/

/-- **C38, exact effect.** `premultiply_alpha = false` is the plain resize; with `true` and a constant
alpha the result is the plain result with its colours *divided* by the resized alpha: alpha is the plain
resize's alpha, and a colour `p` not above it becomes `round(255 p / a)`. So the two modes agree exactly
where the resized alpha is 255 (or the colour 0). Missing: agreement for other alphas, which is false
(`C38_violated`). -/
theorem C38_constant_alpha_partial {W : ℕ} {L : Lib} {r : ResamplingFunction} {store into : Image ℕ}
    (h : Accepted W 4 L r store into) (hfit : store.width * store.height * 4 < W) (hconst : ¬ AlphaVaries store) :
    ∃ plain out, genericResizeWithAlpha W 4 (formatU8 4) alphaU8 L r store into false = some (.ok (), plain) ∧
      genericResizeWithAlpha W 4 (formatU8 4) alphaU8 L r store into true = some (.ok (), out) ∧
      SameShape out into ∧ PaddingKept 4 into out ∧
      ∀ y x, y < into.height → x < into.width → ∃ a,
        sample plain.buffer (into.strideOf 4) 4 y x 3 = some a ∧ sample out.buffer (into.strideOf 4) 4 y x 3 = some a ∧
        ∀ c, c < 3 → ∃ p, sample plain.buffer (into.strideOf 4) 4 y x c = some p ∧
          (p ≤ a → sample out.buffer (into.strideOf 4) 4 y x c = some (if a = 0 then 0 else roundDiv (p * 255) a)) ∧
          (a = 255 → sample out.buffer (into.strideOf 4) 4 y x c = some p) := by
  obtain ⟨qv, qh, out, tv, th, o1, o2, o3, o4⟩ := rgba8_premultiplied h hfit
  obtain ⟨_, _, plain, _, _, _, _, p1, _⟩ := C21_separable h
  obtain ⟨_, _, p4⟩ := result_eq h tv th p1
  have hn : alphaU8.isNeeded store = false := by
    cases hb : alphaU8.isNeeded store
    · rfl
    · exact absurd ((isNeeded_u8 h).1 hb) hconst
  have pf : genericResizeWithAlpha W 4 (formatU8 4) alphaU8 L r store into false = some (.ok (), plain) := by
    rw [← p1]
    unfold genericResizeWithAlpha genericResize
    rw [show checkResize W 4 (formatU8 4).shouldHaveBitDepth store into = .ok () from h.checked]
    simp only
    by_cases q1 : store.width = into.width ∧ store.height = into.height
    · simp only [if_pos q1]
    · simp only [if_neg q1]
      by_cases q2 : r = .nearest
      · simp only [if_pos q2]
      · simp [if_neg q2, premultiplied]
  have hle := fun y x c => pxD_le h.bytes (store.strideOf 4) 4 y x c
  have hw : ∀ c y x, resized8 store into qv qh (fun y x => workPicture (alphaU8.isNeeded store)
            (fun c a => divBy255 (c * a)) (fun a => divBy255 (a * a))
            (fun y x c => pxD 0 store.buffer (store.strideOf 4) 4 y x c) y x c) y x =
        resized8 store into qv qh (fun y x => pxD 0 store.buffer (store.strideOf 4) 4 y x c) y x := by
    intro c y x
    apply resized8_congr
    funext y x
    simp [workPicture, hn]
  refine ⟨plain, out, pf, o1, o2, o3, fun y x hy hx => ?_⟩
  have e3 : sample plain.buffer (into.strideOf 4) 4 y x 3 =
      some (resized8 store into qv qh (fun y x => pxD 0 store.buffer (store.strideOf 4) 4 y x 3) y x) :=
    p4 y x 3 hy hx (by omega)
  have hRle : ∀ c, resized8 store into qv qh (fun y x => pxD 0 store.buffer (store.strideOf 4) 4 y x c) y x ≤ 255 := by
    intro c
    unfold resized8 separable
    simp only
    split_ifs
    · exact hle _ _ _
    · exact clamp_le _ _
    · exact clamp_le _ _
    · exact clamp_le _ _
  refine ⟨_, e3, ?_, ?_⟩
  · rw [o4 y x 3 hy hx (by omega)]
    simp only [pixelVal, if_neg (show ¬ 3 < 3 by omega)]
    rw [hw]
  · intro c hc
    have ec : sample plain.buffer (into.strideOf 4) 4 y x c =
      some (resized8 store into qv qh (fun y x => pxD 0 store.buffer (store.strideOf 4) 4 y x c) y x) :=
      p4 y x c hy hx (by omega)
    have key : resized8 store into qv qh (fun y x => pxD 0 store.buffer (store.strideOf 4) 4 y x c) y x ≤
        resized8 store into qv qh (fun y x => pxD 0 store.buffer (store.strideOf 4) 4 y x 3) y x →
        sample out.buffer (into.strideOf 4) 4 y x c = some
          (if resized8 store into qv qh (fun y x => pxD 0 store.buffer (store.strideOf 4) 4 y x 3) y x = 0 then 0
            else roundDiv (resized8 store into qv qh (fun y x => pxD 0 store.buffer (store.strideOf 4) 4 y x c) y x * 255)
              (resized8 store into qv qh (fun y x => pxD 0 store.buffer (store.strideOf 4) 4 y x 3) y x)) := by
      intro hca
      rw [o4 y x c hy hx (by omega)]
      simp only [pixelVal, if_pos hc]
      rw [hw, hw, unpremul_value (hRle 3) hca]
    refine ⟨_, ec, key, fun ha => ?_⟩
    rw [key (by rw [ha]; exact hRle c), ha, if_neg (by omega)]
    rw [roundDiv_eq (by omega)]
    congr 1
    omega

namespace Demo
/-- 1×1 → 2×1 RGBA8 with constant alpha 128. -/
def csrc : Image ℕ := { buffer := [100, 100, 100, 128], channels := 4, width := 1, height := 1, stride := 4, bitDepth := 8 }
def cdst : Image ℕ := { buffer := List.replicate 8 0, channels := 4, width := 2, height := 1, stride := 8, bitDepth := 8 }
/-- 2×1 RGBA8 with varying alpha. -/
def avsrc : Image ℕ :=
  { buffer := [100, 50, 0, 128, 10, 20, 30, 255], channels := 4, width := 2, height := 1, stride := 8, bitDepth := 8 }
def avdst : Image ℕ := { buffer := List.replicate 13 0, channels := 4, width := 3, height := 1, stride := 13, bitDepth := 8 }

theorem accepted_of {src dst : Image ℕ} (h1 : checkResize (2 ^ 64) 4 false src dst = .ok ())
    (h2 : src.width ≠ dst.width ∨ src.height ≠ dst.height) (h3 : src.width ≤ 2 ^ 23 ∧ src.height ≤ 2 ^ 23)
    (h4 : src.width * dst.height * 4 < 2 ^ 64) (h5 : ∀ v ∈ src.buffer, v ≤ 255)
    (h6 : ((tableOf demoLib .bilinear src.height dst.height).map fun t => decide (t.kernelSize ≤ 256)) = some true)
    (h7 : ((tableOf demoLib .bilinear src.width dst.width).map fun t => decide (t.kernelSize ≤ 256)) = some true) :
    Accepted (2 ^ 64) 4 demoLib .bilinear src dst := by
  obtain ⟨c1, c2, c3, _⟩ := checkResize_ok.1 h1
  refine ⟨by norm_num, h1, by decide, h2, h3, by simp, h4, h5, ?_, ?_⟩
  · intro q hq
    refine noOverflow_of_taps c3.2.1 h3.2 (by simp) hq ?_
    obtain ⟨fw, e, rfl⟩ := hq
    rw [e] at h6
    simp only [Option.map_some, Option.some.injEq, decide_eq_true_eq] at h6
    exact h6
  · intro q hq
    refine noOverflow_of_taps c3.1 h3.1 (by simp) hq ?_
    obtain ⟨fw, e, rfl⟩ := hq
    rw [e] at h7
    simp only [Option.map_some, Option.some.injEq, decide_eq_true_eq] at h7
    exact h7

theorem accepted_c : Accepted (2 ^ 64) 4 demoLib .bilinear csrc cdst :=
  accepted_of (by decide) (by decide) (by decide) (by decide) (by decide) (by decide +kernel) (by decide +kernel)

theorem accepted_v : Accepted (2 ^ 64) 4 demoLib .bilinear avsrc avdst :=
  accepted_of (by decide) (by decide) (by decide) (by decide) (by decide) (by decide +kernel) (by decide +kernel)
end Demo

example : ∃ out, genericResizeWithAlpha (2 ^ 64) 4 (formatU8 4) alphaU8 demoLib .bilinear Demo.avsrc Demo.avdst true =
    some (.ok (), out) ∧ PaddingKept 4 Demo.avdst out := by
  obtain ⟨_, _, out, _, _, h, _, h', _⟩ := C46_alpha_pipeline Demo.accepted_v (by decide)
    ((isNeeded_u8 Demo.accepted_v).1 (by decide))
  exact ⟨out, h, h'⟩

example : ∃ out, genericResizeWithAlpha (2 ^ 64) 4 (formatU8 4) alphaU8 demoLib .bilinear Demo.csrc Demo.cdst true =
    some (.ok (), out) ∧ PaddingKept 4 Demo.cdst out := by
  obtain ⟨_, out, _, h, _, h', _⟩ := C38_constant_alpha_partial Demo.accepted_c (by decide)
    (fun hv => by have := (isNeeded_u8 Demo.accepted_c).2 hv; revert this; decide)
  exact ⟨out, h, h'⟩

/-- **C38 fails**: a flat image with constant alpha 128 and colour 100 gives colour 100 without and
colour 199 with `premultiply_alpha`. -/
theorem C38_violated : ¬ AlphaVaries Demo.csrc ∧
    ∃ plain out, genericResizeWithAlpha (2 ^ 64) 4 (formatU8 4) alphaU8 demoLib .bilinear Demo.csrc Demo.cdst false =
        some (.ok (), plain) ∧
      genericResizeWithAlpha (2 ^ 64) 4 (formatU8 4) alphaU8 demoLib .bilinear Demo.csrc Demo.cdst true = some (.ok (), out) ∧
      sample plain.buffer 8 4 0 0 0 = some 100 ∧ sample out.buffer 8 4 0 0 0 = some 199 := by
  have hn : ¬ AlphaVaries Demo.csrc :=
    fun hv => by have := (isNeeded_u8 Demo.accepted_c).2 hv; revert this; decide
  obtain ⟨plain, out, h1, h2, _, _, h3⟩ := C38_constant_alpha_partial Demo.accepted_c (by decide) hn
  refine ⟨hn, plain, out, h1, h2, ?_⟩
  have hp : genericResizeWithAlpha (2 ^ 64) 4 (formatU8 4) alphaU8 demoLib .bilinear Demo.csrc Demo.cdst false =
      some (.ok (), ⟨[100, 100, 100, 128, 100, 100, 100, 128], 4, 2, 1, 8, 8⟩) := by decide +kernel
  rw [h1] at hp
  have hp : plain = ⟨[100, 100, 100, 128, 100, 100, 100, 128], 4, 2, 1, 8, 8⟩ := by simpa using hp
  subst hp
  obtain ⟨a, a1, _, a3⟩ := h3 0 0 (by decide) (by decide)
  have ha : (128 : ℕ) = a := by
    have : sample [100, 100, 100, 128, 100, 100, 100, 128] (Demo.cdst.strideOf 4) 4 0 0 3 = some 128 := by decide
    rw [this] at a1; exact Option.some.inj a1
  subst ha
  obtain ⟨p, p1, p2, _⟩ := a3 0 (by decide)
  have hp : (100 : ℕ) = p := by
    have : sample [100, 100, 100, 128, 100, 100, 100, 128] (Demo.cdst.strideOf 4) 4 0 0 0 = some 100 := by decide
    rw [this] at p1; exact Option.some.inj p1
  subst hp
  have h8 : Demo.cdst.strideOf 4 = 8 := by decide
  rw [h8] at p2
  refine ⟨by decide, (p2 (by norm_num)).trans ?_⟩
  rw [if_neg (by norm_num), roundDiv_eq (by norm_num)]

/-! ### C47: opaque pixels -/

/-- **C47, 8 bit.** Premultiplying or unpremultiplying an opaque RGBA8 pixel leaves it unchanged. -/
theorem C47_opaque_u8_partial (r g b : ℕ) (hr : r ≤ 255) (hg : g ≤ 255) (hb : b ≤ 255) :
    premultiplyPixel8 [r, g, b, 255] = some [r, g, b, 255] ∧
    unpremultiplyPixel8 [r, g, b, 255] = some [r, g, b, 255] := by
  have k1 : ∀ c, c ≤ 255 → divBy255 (c * 255) = c := by
    intro c hc
    rw [C31_division.1 c 255 hc (by omega), roundDiv_eq (by omega)]; omega
  have k2 : ∀ c, c ≤ 255 → unpremulTable (255 * 255 + c) = c := by
    intro c hc
    rw [unpremul_value (by omega) hc, if_neg (by omega), roundDiv_eq (by omega)]; omega
  constructor
  · simp only [premultiplyPixel8, pixelOp, k1 r hr, k1 g hg, k1 b hb, k1 255 (by omega)]
  · simp only [unpremultiplyPixel8, pixelOp, k2 r hr, k2 g hg, k2 b hb]

example : premultiplyPixel8 [1, 128, 254, 255] = some [1, 128, 254, 255] :=
  (C47_opaque_u8_partial 1 128 254 (by norm_num) (by norm_num) (by norm_num)).1

/-- The reciprocal of the maximum of a depth up to 12 is at most `2^-25` (relative) too small. -/
theorem recip_low {d : ℕ} (hd : 1 ≤ d ∧ d ≤ 12) :
    (1 - 1 / 2 ^ 25 : ℚ) / ((2 ^ d - 1 : ℕ) : ℚ) ≤ F32.div 1 (F32.ofNat (2 ^ d - 1)) := by
  obtain ⟨h1, h2⟩ := hd
  interval_cases d <;> decide +kernel

theorem opaque_value {d c : ℕ} (hd : 1 ≤ d ∧ d ≤ 12) (hc : c ≤ 2 ^ d - 1) :
    ⌊F32.mul (F32.ofNat (c * (2 ^ d - 1))) (F32.div 1 (F32.ofNat (2 ^ d - 1)))⌋ = (c : ℤ) := by
  have hp : 2 ^ d ≤ 4096 := by
    calc 2 ^ d ≤ 2 ^ 12 := Nat.pow_le_pow_right (by norm_num) hd.2
      _ = _ := by norm_num
  have h1 := one_le_max hd.1
  have hrec := recip_low hd
  set m := 2 ^ d - 1 with hm
  have hcm : c * m ≤ m * m := Nat.mul_le_mul_right _ hc
  have hmm : m * m ≤ 4095 * 4095 := Nat.mul_le_mul (by omega) (by omega)
  have hq := float_quot (v := c * m) (m := m) (by omega) (by omega) (hcm.trans (Nat.mul_le_mul_left _ (by omega)))
  have hmq : (0 : ℚ) < m := by exact_mod_cast h1
  have e : ((c * m : ℕ) : ℚ) / m = c := by push_cast; field_simp
  rw [e, abs_le] at hq
  rw [Int.floor_eq_iff]
  push_cast
  refine ⟨?_, by linarith⟩
  rcases Nat.eq_zero_or_pos c with h0 | h0
  · subst h0; simp [F32.mul, F32.ofNat]
  rw [F32.ofNat_exact (n := c * m) (by omega)]
  unfold F32.mul
  apply F32.rnd_just_below h0 (by omega)
  calc (c : ℚ) * (1 - 1 / 2 ^ 25) = (c * m : ℕ) * ((1 - 1 / 2 ^ 25) / m) := by push_cast; field_simp
    _ ≤ _ := by gcongr

/-- **C47, 16 bit, depths 1..=12.** Both operations leave an opaque pixel of depth `d` unchanged. -/
theorem C47_opaque_u16_partial {d : ℕ} (hd : 1 ≤ d ∧ d ≤ 12) (r g b : ℕ) (hr : r ≤ 2 ^ d - 1) (hg : g ≤ 2 ^ d - 1)
    (hb : b ≤ 2 ^ d - 1) :
    premultiplyPixel16 (2 ^ d - 1) [r, g, b, 2 ^ d - 1] = some [r, g, b, 2 ^ d - 1] ∧
    unpremultiplyPixel16 (2 ^ d - 1) [r, g, b, 2 ^ d - 1] = some [r, g, b, 2 ^ d - 1] := by
  have hp : 2 ^ d ≤ 4096 := by
    calc 2 ^ d ≤ 2 ^ 12 := Nat.pow_le_pow_right (by norm_num) hd.2
      _ = _ := by norm_num
  have h1 := one_le_max hd.1
  have k1 : ∀ c, c ≤ 2 ^ d - 1 → premulValue16 (2 ^ d - 1) (c * (2 ^ d - 1)) = c := by
    intro c hc
    unfold premulValue16
    split_ifs with e1 e2 e3
    · rw [e1, C31_division.2.1 c 1023 (by omega) (by omega), roundDiv_eq (by omega)]; omega
    · exfalso; omega
    · exfalso; omega
    · unfold truncSat
      rw [opaque_value hd hc]
      simp only [Int.toNat_natCast]
      omega
  have k2 : ∀ c, c ≤ 2 ^ d - 1 → unpremulValue16 (2 ^ d - 1) c (2 ^ d - 1) = c := by
    intro c hc
    unfold unpremulValue16 truncSat
    rw [opaque_value hd hc]
    simp only [Int.toNat_natCast]
    omega
  have hne : 2 ^ d - 1 ≠ 0 := by omega
  constructor
  · simp only [premultiplyPixel16, pixelOp, k1 r hr, k1 g hg, k1 b hb, k1 (2 ^ d - 1) (le_refl _)]
  · simp only [unpremultiplyPixel16, pixelOp, if_pos hne, k2 r hr, k2 g hg, k2 b hb, k2 (2 ^ d - 1) (le_refl _)]

example : premultiplyPixel16 4095 [1, 2048, 4094, 4095] = some [1, 2048, 4094, 4095] :=
  (C47_opaque_u16_partial (d := 12) (by norm_num) 1 2048 4094 (by norm_num) (by norm_num) (by norm_num)).1

/-- **C47 fails for 13..=16 bits**: an opaque 14-bit pixel of colour 1027 comes back as 1026 from both
operations; an opaque 16-bit pixel of colour 259 as 258 from unpremultiplication. -/
theorem C47_violated :
    premultiplyPixel16 (2 ^ 14 - 1) [1027, 0, 0, 2 ^ 14 - 1] = some [1026, 0, 0, 2 ^ 14 - 1] ∧
    unpremultiplyPixel16 (2 ^ 14 - 1) [1027, 0, 0, 2 ^ 14 - 1] = some [1026, 0, 0, 2 ^ 14 - 1] ∧
    unpremultiplyPixel16 (2 ^ 16 - 1) [259, 0, 0, 2 ^ 16 - 1] = some [258, 0, 0, 2 ^ 16 - 1] := by
  refine ⟨by decide +kernel, by decide +kernel, by decide +kernel⟩

end PicScale
