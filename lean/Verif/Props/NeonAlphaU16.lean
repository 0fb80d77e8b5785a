import Verif.Lemmas.NeonAlphaHalf

/-!
Property theorems about RGBA16 alpha handling on AArch64: C155–C161.
-/

namespace PicScale

open Spec

theorem premultiply_neon16 {fp16 fp16' : Bool} {src dst : Image ℕ}
    (hs : src.validate 4 = .ok ()) (hd : dst.validate 4 = .ok ())
    (hw : src.width = dst.width) (hh : src.height = dst.height) (hp : 0 < dst.width) :
    ∃ out, (alphaNeonU16 fp16 fp16').premultiply src dst = some out ∧ SameShape out dst ∧ PaddingKept 4 dst out ∧
      ∀ y x c, y < dst.height → x < dst.width → c < 4 → sample out.buffer (dst.strideOf 4) 4 y x c =
        some (pixelVal (premulN16 fp16 dst.bitDepth) (fun a => a)
          (fun c => pxD 0 src.buffer (src.strideOf 4) 4 y x c) c) :=
  premultiplyImageWith_spec (premulRowNeon16_ok fp16 dst.bitDepth) hs hd hw hh hp

theorem unpremultiply_neon16 {fp16 fp16' : Bool} {img : Image ℕ} (hs : img.validate 4 = .ok ()) (hp : 0 < img.width) :
    ∃ out, (alphaNeonU16 fp16 fp16').unpremultiply img = some out ∧ SameShape out img ∧ PaddingKept 4 img out ∧
      ∀ y x c, y < img.height → x < img.width → c < 4 → sample out.buffer (img.strideOf 4) 4 y x c =
        some (pixelVal (unpremulN16 fp16' img.bitDepth) (fun a => a)
          (fun c => pxD 0 img.buffer (img.strideOf 4) 4 y x c) c) :=
  unpremultiplyImageWith_spec (unpremulRowNeon16_ok fp16' img.bitDepth) hs hp

/-! ### C155: exactly rounded premultiplication -/

/-- **C155.** On AArch64, premultiplying a 16-bit RGBA16 image, or on a CPU without half-precision arithmetic a 10-bit
or 12-bit one, into any image of the same size succeeds without leaving a buffer, replaces every colour by
`c * a / max` exactly rounded, keeps every alpha and does not touch row padding. -/
theorem C155_premultiply_neon {fp16 fp16' : Bool} {src dst : Image ℕ}
    (hdep : dst.bitDepth = 16 ∨ fp16 = false ∧ (dst.bitDepth = 10 ∨ dst.bitDepth = 12))
    (hs : src.validate 4 = .ok ()) (hd : dst.validate 4 = .ok ())
    (hw : src.width = dst.width) (hh : src.height = dst.height) (hp : 0 < dst.width)
    (hb : FitsDepth dst.bitDepth src) :
    ∃ out, (alphaNeonU16 fp16 fp16').premultiply src dst = some out ∧ SameShape out dst ∧ PaddingKept 4 dst out ∧
      ∀ y x, y < dst.height → x < dst.width →
        (∀ c, c < 3 → sample out.buffer (dst.strideOf 4) 4 y x c =
          some (roundDiv (pxD 0 src.buffer (src.strideOf 4) 4 y x c * alphaAt src.buffer (src.strideOf 4) y x)
            (2 ^ dst.bitDepth - 1))) ∧
        sample out.buffer (dst.strideOf 4) 4 y x 3 = some (alphaAt src.buffer (src.strideOf 4) y x) := by
  obtain ⟨out, o1, o2, o3, o4⟩ := premultiply_neon16 (fp16 := fp16) (fp16' := fp16') hs hd hw hh hp
  refine ⟨out, o1, o2, o3, fun y x hy hx => ⟨fun c hc => ?_, ?_⟩⟩
  · rw [o4 y x c hy hx (by omega), pixelVal, if_pos hc]
    have h1 := pxD_le_depth hb y x c
    have h2 := pxD_le_depth hb y x 3
    have hk : divExponent dst.bitDepth = dst.bitDepth := by
      unfold divExponent; rcases hdep with h | ⟨_, h | h⟩ <;> rw [h] <;> rfl
    have hn : ¬ (fp16 = true ∧ (dst.bitDepth = 10 ∨ dst.bitDepth = 12)) := by
      rintro ⟨hf, h⟩
      rcases hdep with h' | ⟨h', _⟩
      · omega
      · rw [hf] at h'; exact absurd h' (by decide)
    unfold premulN16
    rw [if_neg hn, if_pos (by tauto), hk, neonDivBy_eq (by tauto) h1 h2]
    rfl
  · rw [o4 y x 3 hy hx (by omega), pixelVal, if_neg (by omega)]
    rfl

example : ∃ out, (alphaNeonU16 false true).premultiply Demo.a10src (Demo.a16dst 10) = some out ∧
    sample out.buffer 10 4 0 0 0 = some 500 ∧ sample out.buffer 10 4 0 0 3 = some 512 := by
  obtain ⟨out, h, _, _, h'⟩ := C155_premultiply_neon (fp16 := false) (fp16' := true) (src := Demo.a10src)
    (dst := Demo.a16dst 10) (by decide) (by decide) (by decide) rfl rfl (by decide) (by unfold FitsDepth; decide)
  refine ⟨out, h, ?_, (h' 0 0 (by decide) (by decide)).2⟩
  have := (h' 0 0 (by decide) (by decide)).1 0 (by decide)
  rw [roundDiv_eq (by decide)] at this
  exact this

example : ∃ out, (alphaNeonU16 true true).premultiply (Demo.white16 16) (Demo.white16 16) = some out := by
  obtain ⟨out, h, _⟩ := C155_premultiply_neon (fp16 := true) (fp16' := true) (src := Demo.white16 16)
    (dst := Demo.white16 16) (by decide) (by decide) (by decide) rfl rfl (by decide) (by unfold FitsDepth; decide)
  exact ⟨out, h⟩

/-! ### C156: premultiplication at other depths -/

/-- **C156.** On AArch64, at every depth from 1 to 15 other than 10 and 12, premultiplying an RGBA16 image makes every
colour `c * a / max` to within 51/100, keeps every alpha and does not touch row padding. -/
theorem C156_premultiply_neon {fp16 fp16' : Bool} {src dst : Image ℕ}
    (hdep : 1 ≤ dst.bitDepth ∧ dst.bitDepth ≤ 15 ∧ dst.bitDepth ≠ 10 ∧ dst.bitDepth ≠ 12)
    (hs : src.validate 4 = .ok ()) (hd : dst.validate 4 = .ok ())
    (hw : src.width = dst.width) (hh : src.height = dst.height) (hp : 0 < dst.width)
    (hb : FitsDepth dst.bitDepth src) :
    ∃ out, (alphaNeonU16 fp16 fp16').premultiply src dst = some out ∧ SameShape out dst ∧ PaddingKept 4 dst out ∧
      ∀ y x, y < dst.height → x < dst.width →
        (∀ c, c < 3 → ∃ v, sample out.buffer (dst.strideOf 4) 4 y x c = some v ∧
          Premultiplied16 (2 ^ dst.bitDepth - 1) (pxD 0 src.buffer (src.strideOf 4) 4 y x c)
            (alphaAt src.buffer (src.strideOf 4) y x) v) ∧
        sample out.buffer (dst.strideOf 4) 4 y x 3 = some (alphaAt src.buffer (src.strideOf 4) y x) := by
  obtain ⟨out, o1, o2, o3, o4⟩ := premultiply_neon16 (fp16 := fp16) (fp16' := fp16') hs hd hw hh hp
  obtain ⟨d1, d2, d3, d4⟩ := hdep
  refine ⟨out, o1, o2, o3, fun y x hy hx => ⟨fun c hc => ⟨_, o4 y x c hy hx (by omega), ?_⟩, ?_⟩⟩
  · rw [pixelVal, if_pos hc]
    unfold premulN16
    rw [if_neg (by omega), if_neg (by omega)]
    exact premulAny_ok d1 d2 (pxD_le_depth hb y x c) (pxD_le_depth hb y x 3)
  · rw [o4 y x 3 hy hx (by omega), pixelVal, if_neg (by omega)]
    rfl

example : ∃ out, (alphaNeonU16 true true).premultiply Demo.a10src (Demo.a16dst 14) = some out := by
  obtain ⟨out, h, _⟩ := C156_premultiply_neon (fp16 := true) (fp16' := true) (src := Demo.a10src)
    (dst := Demo.a16dst 14) (by decide) (by decide) (by decide) rfl rfl (by decide) (by unfold FitsDepth; decide)
  exact ⟨out, h⟩

/-! ### C157: premultiplication in half precision -/

/-- **C157, with a wide tolerance.** On an AArch64 CPU with half-precision arithmetic, premultiplying a 10-bit (12-bit)
RGBA16 image makes every colour `c * a / max` to within 51/100 plus 1/430 (1/220) of the value, keeps every alpha and does
not touch row padding. Missing: rounding to nearest, and opaque pixels unchanged (`C157_violated`). -/
theorem C157_premultiply_neon_partial {fp16' : Bool} {src dst : Image ℕ}
    (hdep : dst.bitDepth = 10 ∨ dst.bitDepth = 12)
    (hs : src.validate 4 = .ok ()) (hd : dst.validate 4 = .ok ())
    (hw : src.width = dst.width) (hh : src.height = dst.height) (hp : 0 < dst.width)
    (hb : FitsDepth dst.bitDepth src) :
    ∃ out, (alphaNeonU16 true fp16').premultiply src dst = some out ∧ SameShape out dst ∧ PaddingKept 4 dst out ∧
      ∀ y x, y < dst.height → x < dst.width →
        (∀ c, c < 3 → ∃ v, sample out.buffer (dst.strideOf 4) 4 y x c = some v ∧
          PremultipliedTo (if dst.bitDepth = 10 then 430 else 220) (2 ^ dst.bitDepth - 1)
            (pxD 0 src.buffer (src.strideOf 4) 4 y x c) (alphaAt src.buffer (src.strideOf 4) y x) v) ∧
        sample out.buffer (dst.strideOf 4) 4 y x 3 = some (alphaAt src.buffer (src.strideOf 4) y x) := by
  obtain ⟨out, o1, o2, o3, o4⟩ := premultiply_neon16 (fp16 := true) (fp16' := fp16') hs hd hw hh hp
  refine ⟨out, o1, o2, o3, fun y x hy hx => ⟨fun c hc => ⟨_, o4 y x c hy hx (by omega), ?_⟩, ?_⟩⟩
  · rw [pixelVal, if_pos hc]
    exact premulHalf_ok hdep (pxD_le_depth hb y x c) (pxD_le_depth hb y x 3)
  · rw [o4 y x 3 hy hx (by omega), pixelVal, if_neg (by omega)]
    rfl

example : ∃ out, (alphaNeonU16 true true).premultiply Demo.a10src (Demo.a16dst 12) = some out := by
  obtain ⟨out, h, _⟩ := C157_premultiply_neon_partial (fp16' := true) (src := Demo.a10src)
    (dst := Demo.a16dst 12) (by decide) (by decide) (by decide) rfl rfl (by decide) (by unfold FitsDepth; decide)
  exact ⟨out, h⟩

/-- **C157 fails**: with half-precision arithmetic an opaque white pixel of a 10-bit image, 1023, becomes 1022, and of a
12-bit image, 4095, becomes 4088 (the reciprocal of the maximum is an 8-bit estimate, and 4095 is not a half). -/
theorem C157_violated {fp16' : Bool} :
    (∃ out, (alphaNeonU16 true fp16').premultiply (Demo.white16 10) (Demo.white16 10) = some out ∧
      sample out.buffer 4 4 0 0 0 = some 1022) ∧
    (∃ out, (alphaNeonU16 true fp16').premultiply (Demo.white16 12) (Demo.white16 12) = some out ∧
      sample out.buffer 4 4 0 0 0 = some 4088) := by
  have key10 : premulN16 true 10 1023 1023 = 1022 := by decide +kernel
  have key12 : premulN16 true 12 4095 4095 = 4088 := by decide +kernel
  constructor
  · obtain ⟨out, o1, _, _, o4⟩ := premultiply_neon16 (fp16 := true) (fp16' := fp16') (src := Demo.white16 10)
      (dst := Demo.white16 10) rfl rfl rfl rfl Nat.one_pos
    exact ⟨out, o1, (o4 0 0 0 Nat.one_pos Nat.one_pos (by decide)).trans (congrArg some key10)⟩
  · obtain ⟨out, o1, _, _, o4⟩ := premultiply_neon16 (fp16 := true) (fp16' := fp16') (src := Demo.white16 12)
      (dst := Demo.white16 12) rfl rfl rfl rfl Nat.one_pos
    exact ⟨out, o1, (o4 0 0 0 Nat.one_pos Nat.one_pos (by decide)).trans (congrArg some key12)⟩

/-! ### C158, C159: unpremultiplication -/

/-- **C158.** On AArch64, at every depth (10 and 12 bits only without half-precision arithmetic), unpremultiplying an
RGBA16 image whose colours do not exceed alpha gives `max * c / a` to within 51/100 plus 1/3000000 of the value, so that
every sample fits the depth; transparent pixels are left alone, alpha and row padding kept. -/
theorem C158_unpremultiply_neon {fp16 fp16' : Bool} {img : Image ℕ}
    (hdep : img.bitDepth ≤ 16) (hf : fp16' = true → img.bitDepth ≠ 10 ∧ img.bitDepth ≠ 12)
    (hs : img.validate 4 = .ok ()) (hp : 0 < img.width) (hb : FitsDepth img.bitDepth img)
    (hpre : ∀ y x c, y < img.height → x < img.width → c < 3 →
      pxD 0 img.buffer (img.strideOf 4) 4 y x c ≤ alphaAt img.buffer (img.strideOf 4) y x) :
    ∃ out, (alphaNeonU16 fp16 fp16').unpremultiply img = some out ∧ SameShape out img ∧ PaddingKept 4 img out ∧
      ∀ y x, y < img.height → x < img.width →
        (∀ c, c < 3 → ∃ v, sample out.buffer (img.strideOf 4) 4 y x c = some v ∧
          UnpremultipliedTo 3000000 (2 ^ img.bitDepth - 1) (pxD 0 img.buffer (img.strideOf 4) 4 y x c)
            (alphaAt img.buffer (img.strideOf 4) y x) v ∧ v ≤ 2 ^ img.bitDepth - 1) ∧
        sample out.buffer (img.strideOf 4) 4 y x 3 = some (alphaAt img.buffer (img.strideOf 4) y x) := by
  obtain ⟨out, o1, o2, o3, o4⟩ := unpremultiply_neon16 (fp16 := fp16) (fp16' := fp16') hs hp
  have hM := depth_max_le hdep
  refine ⟨out, o1, o2, o3, fun y x hy hx => ⟨fun c hc => ⟨_, o4 y x c hy hx (by omega), ?_⟩, ?_⟩⟩
  · rw [pixelVal, if_pos hc]
    have h1 := pxD_le_depth hb y x c
    have h2 := pxD_le_depth hb y x 3
    have h3 := hpre y x c hy hx hc
    have hn : ¬ ((img.bitDepth = 10 ∨ img.bitDepth = 12) ∧ fp16' = true) := by
      rintro ⟨h, h'⟩
      have := hf h'
      omega
    unfold alphaAt at *
    generalize pxD 0 img.buffer (img.strideOf 4) 4 y x c = v at *
    generalize pxD 0 img.buffer (img.strideOf 4) 4 y x 3 = a at *
    unfold unpremulN16
    by_cases h0 : a = 0
    · rw [if_pos h0]
      exact ⟨⟨fun _ => rfl, fun h => absurd h0 h⟩, h1⟩
    · rw [if_neg h0, if_neg hn]
      have h := unpremul32_ok hdep h3 (by omega) (by omega)
      refine ⟨⟨fun h' => absurd h' h0, fun _ => h⟩, ?_⟩
      have he := M_div_le (M := 2 ^ img.bitDepth - 1) (a := a) (by omega) h3
      have hMq : ((2 ^ img.bitDepth - 1 : ℕ) : ℚ) ≤ 65535 := by exact_mod_cast hM
      have hlt := (abs_le.1 h).2
      generalize scaleLaneN v (F32.mul (F32.div 1 (a : ℚ)) ((2 ^ img.bitDepth - 1 : ℕ) : ℚ)) = r at *
      generalize 2 ^ img.bitDepth - 1 = M at *
      have hlt : (r : ℚ) < M + 1 := by linarith
      have hlt : r < M + 1 := by exact_mod_cast hlt
      omega
  · rw [o4 y x 3 hy hx (by omega), pixelVal, if_neg (by omega)]
    rfl

example : ∃ out, (alphaNeonU16 true false).unpremultiply Demo.a10pre = some out := by
  obtain ⟨out, h, _⟩ := C158_unpremultiply_neon (fp16 := true) (fp16' := false) (img := Demo.a10pre)
    (by decide) (by decide) (by decide) (by decide) (by unfold FitsDepth; decide) Demo.a10pre_pre
  exact ⟨out, h⟩

/-- One pixel of depth `d` with the same colour in three channels. -/
def Demo.grey16 (d c a : ℕ) : Image ℕ :=
  { buffer := [c, c, c, a], channels := 4, width := 1, height := 1, stride := 4, bitDepth := d }

/-- **C159 fails**: on AArch64 unpremultiplying a pixel whose colour exceeds its alpha does not saturate. At 16 bits the
result wraps: colour 65535 with alpha 65534 gives 0. At 10 bits (without half-precision arithmetic) colour 1023 with alpha
512 gives 2044, twice the maximum. -/
theorem C159_violated {fp16 fp16' : Bool} :
    (∃ out, (alphaNeonU16 fp16 fp16').unpremultiply (Demo.grey16 16 65535 65534) = some out ∧
      sample out.buffer 4 4 0 0 0 = some 0) ∧
    (∃ out, (alphaNeonU16 fp16 false).unpremultiply (Demo.grey16 10 1023 512) = some out ∧
      sample out.buffer 4 4 0 0 0 = some 2044) := by
  have key16 : ∀ b, unpremulN16 b 16 65535 65534 = 0 := by decide +kernel
  have key10 : unpremulN16 false 10 1023 512 = 2044 := by decide +kernel
  constructor
  · obtain ⟨out, o1, _, _, o4⟩ := unpremultiply_neon16 (fp16 := fp16) (fp16' := fp16') (img := Demo.grey16 16 65535 65534)
      rfl Nat.one_pos
    exact ⟨out, o1, (o4 0 0 0 Nat.one_pos Nat.one_pos (by decide)).trans (congrArg some (key16 fp16'))⟩
  · obtain ⟨out, o1, _, _, o4⟩ := unpremultiply_neon16 (fp16 := fp16) (fp16' := false) (img := Demo.grey16 10 1023 512)
      rfl Nat.one_pos
    exact ⟨out, o1, (o4 0 0 0 Nat.one_pos Nat.one_pos (by decide)).trans (congrArg some key10)⟩

/-! ### C160: unpremultiplication in half precision -/

/-- **C160, 10 bits in full, 12 bits without the range.** On an AArch64 CPU with half-precision arithmetic,
unpremultiplying a 10-bit (12-bit) RGBA16 image whose colours do not exceed alpha gives `max * c / a` to within 51/100 plus
1/500 (1/300) of the value, leaves transparent pixels alone, keeps alpha and row padding; at 10 bits every sample fits the
depth. Missing: the range at 12 bits (`C160_violated`). -/
theorem C160_unpremultiply_neon_partial {fp16 : Bool} {img : Image ℕ} (hdep : img.bitDepth = 10 ∨ img.bitDepth = 12)
    (hs : img.validate 4 = .ok ()) (hp : 0 < img.width) (hb : FitsDepth img.bitDepth img)
    (hpre : ∀ y x c, y < img.height → x < img.width → c < 3 →
      pxD 0 img.buffer (img.strideOf 4) 4 y x c ≤ alphaAt img.buffer (img.strideOf 4) y x) :
    ∃ out, (alphaNeonU16 fp16 true).unpremultiply img = some out ∧ SameShape out img ∧ PaddingKept 4 img out ∧
      ∀ y x, y < img.height → x < img.width →
        (∀ c, c < 3 → ∃ v, sample out.buffer (img.strideOf 4) 4 y x c = some v ∧
          UnpremultipliedTo (if img.bitDepth = 10 then 500 else 300) (2 ^ img.bitDepth - 1)
            (pxD 0 img.buffer (img.strideOf 4) 4 y x c) (alphaAt img.buffer (img.strideOf 4) y x) v ∧
          (img.bitDepth = 10 → v ≤ 1023)) ∧
        sample out.buffer (img.strideOf 4) 4 y x 3 = some (alphaAt img.buffer (img.strideOf 4) y x) := by
  obtain ⟨out, o1, o2, o3, o4⟩ := unpremultiply_neon16 (fp16 := fp16) (fp16' := true) hs hp
  refine ⟨out, o1, o2, o3, fun y x hy hx => ⟨fun c hc => ⟨_, o4 y x c hy hx (by omega), ?_, ?_⟩, ?_⟩⟩
  · rw [pixelVal, if_pos hc]
    exact unpremulHalf_ok hdep (hpre y x c hy hx hc) (pxD_le_depth hb y x 3)
  · intro h10
    rw [pixelVal, if_pos hc]
    have h1 := pxD_le_depth hb y x c
    have h2 := pxD_le_depth hb y x 3
    have h3 := hpre y x c hy hx hc
    unfold alphaAt at h3
    rw [h10] at h1 h2 ⊢
    norm_num at h1 h2
    generalize pxD 0 img.buffer (img.strideOf 4) 4 y x c = v at *
    generalize pxD 0 img.buffer (img.strideOf 4) 4 y x 3 = a at *
    by_cases h0 : a = 0
    · unfold unpremulN16; rw [if_pos h0]; exact h1
    · exact (unpremulHalf_mono (Or.inl rfl) h3 (by omega) h2).trans (unpremulHalf10_self (by omega) h2).le
  · rw [o4 y x 3 hy hx (by omega), pixelVal, if_neg (by omega)]
    rfl

example : ∃ out, (alphaNeonU16 true true).unpremultiply Demo.a10pre = some out := by
  obtain ⟨out, h, _⟩ := C160_unpremultiply_neon_partial (fp16 := true) (img := Demo.a10pre)
    (by decide) (by decide) (by decide) (by unfold FitsDepth; decide) Demo.a10pre_pre
  exact ⟨out, h⟩

/-- **C160 fails at 12 bits**: an opaque white pixel, 4095, becomes 4096, which does not fit the depth. -/
theorem C160_violated {fp16 : Bool} :
    ∃ out, (alphaNeonU16 fp16 true).unpremultiply (Demo.white16 12) = some out ∧ sample out.buffer 4 4 0 0 0 = some 4096 := by
  have key : unpremulN16 true 12 4095 4095 = 4096 := by decide +kernel
  obtain ⟨out, o1, _, _, o4⟩ := unpremultiply_neon16 (fp16 := fp16) (fp16' := true) (img := Demo.white16 12) rfl Nat.one_pos
  exact ⟨out, o1, (o4 0 0 0 Nat.one_pos Nat.one_pos (by decide)).trans (congrArg some key)⟩

/-! ### C161: alpha and padding -/

/-- **C161.** On AArch64, whatever the depth, the samples and the CPU, premultiplication and unpremultiplication of
RGBA16 images succeed without leaving a buffer, keep every alpha, keep the shape and do not touch row padding. -/
theorem C161_alpha_kept_neon {fp16 fp16' : Bool} :
    (∀ {src dst : Image ℕ}, src.validate 4 = .ok () → dst.validate 4 = .ok () → src.width = dst.width →
      src.height = dst.height → 0 < dst.width →
      ∃ out, (alphaNeonU16 fp16 fp16').premultiply src dst = some out ∧ SameShape out dst ∧ PaddingKept 4 dst out ∧
        ∀ y x, y < dst.height → x < dst.width →
          sample out.buffer (dst.strideOf 4) 4 y x 3 = some (alphaAt src.buffer (src.strideOf 4) y x)) ∧
    (∀ {img : Image ℕ}, img.validate 4 = .ok () → 0 < img.width →
      ∃ out, (alphaNeonU16 fp16 fp16').unpremultiply img = some out ∧ SameShape out img ∧ PaddingKept 4 img out ∧
        ∀ y x, y < img.height → x < img.width →
          sample out.buffer (img.strideOf 4) 4 y x 3 = some (alphaAt img.buffer (img.strideOf 4) y x)) := by
  refine ⟨fun hs hd hw hh hp => ?_, fun hs hp => ?_⟩
  · obtain ⟨out, o1, o2, o3, o4⟩ := premultiply_neon16 (fp16 := fp16) (fp16' := fp16') hs hd hw hh hp
    exact ⟨out, o1, o2, o3, fun y x hy hx => o4 y x 3 hy hx (by omega)⟩
  · obtain ⟨out, o1, o2, o3, o4⟩ := unpremultiply_neon16 (fp16 := fp16) (fp16' := fp16') hs hp
    exact ⟨out, o1, o2, o3, fun y x hy hx => o4 y x 3 hy hx (by omega)⟩

example : ∃ out, (alphaNeonU16 true true).unpremultiply Demo.a10src = some out ∧ sample out.buffer 9 4 0 0 3 = some 512 := by
  obtain ⟨out, h, _, _, h'⟩ := (C161_alpha_kept_neon (fp16 := true) (fp16' := true)).2 (img := Demo.a10src) (by decide) (by decide)
  exact ⟨out, h, h' 0 0 (by decide) (by decide)⟩

end PicScale
