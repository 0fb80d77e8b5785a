import Verif.Lemmas.AlphaX86F32
import Verif.Props.Alpha
import Verif.Lemmas.F32

/-!
Property theorems about RGBA f32 alpha handling on x86: C73–C75.
-/

namespace PicScale

open Spec

/-- The number of pixels of a row of `w` handled in full vector chunks. -/
def vectorPixels (cpu : Cpu) (w : ℕ) : ℕ :=
  if cpu.avx2 then w / 8 * 8 else if cpu.sse41 then w / 4 * 4 else 0

theorem premultiplyF_spec (cpu : Cpu) (bits : ℚ → ℕ) {src dst : Image ℚ}
    (hs : src.validate 4 = .ok ()) (hd : dst.validate 4 = .ok ())
    (hw : src.width = dst.width) (hh : src.height = dst.height) (hp : 0 < dst.width) :
    ∃ out, (alphaX86F32 cpu bits).premultiply src dst = some out ∧ SameShape out dst ∧ PaddingKept 4 dst out ∧
      ∀ y x c, y < dst.height → x < dst.width → c < 4 → sample out.buffer (dst.strideOf 4) 4 y x c =
        some (pixelVal (fun c a => F32.rnd (c * a)) id (fun c => pxD 0 src.buffer (src.strideOf 4) 4 y x c) c) := by
  unfold alphaX86F32
  dsimp only
  split_ifs
  · exact premultiplyImageWith_spec (premulRowF_ok (by norm_num) (by norm_num) (avxChunkF_pixelwise mulps_laneWise)) hs hd hw hh hp
  · exact premultiplyImageWith_spec (premulRowF_ok (by norm_num) (by norm_num) (sseChunkF_pixelwise mulps_laneWise)) hs hd hw hh hp
  · exact premultiplyImage_spec (fun c a => F32.rnd (c * a)) (fun a => a) 0 hs hd hw hh hp

theorem unpremultiplyF_spec (cpu : Cpu) (bits : ℚ → ℕ) {img : Image ℚ} (hs : img.validate 4 = .ok ()) (hp : 0 < img.width) :
    ∃ out, (alphaX86F32 cpu bits).unpremultiply img = some out ∧ SameShape out img ∧ PaddingKept 4 img out ∧
      ∀ y x c, y < img.height → x < img.width → c < 4 → sample out.buffer (img.strideOf 4) 4 y x c =
        some (pixelVal (fun c a => if a = 0 then 0 else if x < vectorPixels cpu img.width then F32.rnd (c / a)
          else F32.rnd (c * F32.rnd (1 / a))) id (fun c => pxD 0 img.buffer (img.strideOf 4) 4 y x c) c) := by
  unfold alphaX86F32
  dsimp only
  split_ifs with h1 h2
  · obtain ⟨out, o1, o2, o3, o4⟩ := unpremultiplyImageWith_spec_x
      (unpremulRowF_ok (by norm_num) (by norm_num) (avxChunkF_pixelwise unpremulLanesF_laneWise)) hs hp
    refine ⟨out, o1, o2, o3, fun y x c hy hx hc => ?_⟩
    rw [o4 y x c hy hx hc]
    have e : (x * 4 < img.width * 4 / 32 * 32) = (x < vectorPixels cpu img.width) := by
      unfold vectorPixels
      rw [if_pos h1]
      exact propext (by omega)
    simp only [e]
  · obtain ⟨out, o1, o2, o3, o4⟩ := unpremultiplyImageWith_spec_x
      (unpremulRowF_ok (by norm_num) (by norm_num) (sseChunkF_pixelwise unpremulLanesF_laneWise)) hs hp
    refine ⟨out, o1, o2, o3, fun y x c hy hx hc => ?_⟩
    rw [o4 y x c hy hx hc]
    have e : (x * 4 < img.width * 4 / 16 * 16) = (x < vectorPixels cpu img.width) := by
      unfold vectorPixels
      rw [if_neg h1, if_pos h2]
      exact propext (by omega)
    simp only [e]
  · obtain ⟨out, o1, o2, o3, o4⟩ := unpremultiplyImage_spec
      (fun c a => if a ≠ 0 then F32.rnd (c * F32.rnd (1 / a)) else 0) (fun a => a) 0 hs hp
    rw [← unpremultiplyPixelF_eq] at o1
    refine ⟨out, o1, o2, o3, fun y x c hy hx hc => ?_⟩
    rw [o4 y x c hy hx hc]
    have e : (x < vectorPixels cpu img.width) = False := by
      unfold vectorPixels
      rw [if_neg h1, if_neg h2]
      simp
    simp only [e, if_false, ne_eq, ite_not]
    rfl

namespace Demo
/-- A row of `w` equal pixels with 5 colour 5 and alpha 3, and two samples of padding. -/
def flatF (w : ℕ) : Image ℚ :=
  { buffer := (List.replicate w [5, 5, 5, 3]).flatten ++ [7, 7], channels := 4, width := w, height := 1, stride := w * 4 + 2, bitDepth := 0 }
end Demo

/-! ### C73 -/

/-- **C73.** On every x86 CPU, premultiplying any RGBA f32 image into an image of the same size replaces every colour by the
correctly rounded product with alpha, keeps every alpha exactly and does not touch row padding. -/
theorem C73_premultiply (cpu : Cpu) (bits : ℚ → ℕ) {src dst : Image ℚ}
    (hs : src.validate 4 = .ok ()) (hd : dst.validate 4 = .ok ())
    (hw : src.width = dst.width) (hh : src.height = dst.height) (hp : 0 < dst.width) :
    ∃ out, (alphaX86F32 cpu bits).premultiply src dst = some out ∧ SameShape out dst ∧ PaddingKept 4 dst out ∧
      ∀ y x, y < dst.height → x < dst.width →
        (∀ c, c < 3 → sample out.buffer (dst.strideOf 4) 4 y x c =
          some (F32.rnd (pxD 0 src.buffer (src.strideOf 4) 4 y x c * pxD 0 src.buffer (src.strideOf 4) 4 y x 3))) ∧
        sample out.buffer (dst.strideOf 4) 4 y x 3 = some (pxD 0 src.buffer (src.strideOf 4) 4 y x 3) := by
  obtain ⟨out, o1, o2, o3, o4⟩ := premultiplyF_spec cpu bits hs hd hw hh hp
  refine ⟨out, o1, o2, o3, fun y x hy hx => ⟨fun c hc => ?_, ?_⟩⟩
  · rw [o4 y x c hy hx (by omega), pixelVal, if_pos hc]
  · rw [o4 y x 3 hy hx (by omega), pixelVal, if_neg (by omega)]
    rfl

/-- Five pixels: one SSE4.1 chunk and a remainder. -/
example : ∃ out, (alphaX86F32 ⟨true, false⟩ (fun _ => 0)).premultiply (Demo.flatF 5) (Demo.flatF 5) = some out ∧
    sample out.buffer 22 4 0 4 0 = some 15 ∧ sample out.buffer 22 4 0 0 3 = some 3 := by
  obtain ⟨out, h, _, _, h'⟩ := C73_premultiply ⟨true, false⟩ (fun _ => 0) (src := Demo.flatF 5) (dst := Demo.flatF 5)
    (by decide +kernel) (by decide +kernel) rfl rfl (by decide)
  refine ⟨out, h, ?_, (h' 0 0 (by decide) (by decide)).2.trans (by decide +kernel)⟩
  exact ((h' 0 4 (by decide) (by decide)).1 0 (by decide)).trans (by decide +kernel)

/-! ### C74 -/

/-- Dividing through the reciprocal: two more roundings. -/
theorem recip_quot_err {c a : ℚ} (ha : 1 / 2 ^ 100 ≤ |a|) (ha' : |a| ≤ 2 ^ 100) :
    |F32.rnd (c * F32.rnd (1 / a)) - c / a| ≤ |c / a| / 2 ^ 22 + 1 / 2 ^ 150 := by
  have ha0 : 0 < |a| := lt_of_lt_of_le (by positivity) ha
  have h1 := F32.rnd_err_rel (q := 1 / a) (by
    rw [abs_div, abs_one]
    calc (1 : ℚ) / 2 ^ 126 ≤ 1 / 2 ^ 100 := by norm_num
      _ ≤ 1 / |a| := by gcongr)
  have h2 : |c * F32.rnd (1 / a) - c / a| ≤ |c / a| / 2 ^ 24 := by
    have e : c * F32.rnd (1 / a) - c / a = c * (F32.rnd (1 / a) - 1 / a) := by ring
    rw [e, abs_mul]
    calc |c| * |F32.rnd (1 / a) - 1 / a| ≤ |c| * (|1 / a| / 2 ^ 24) := by gcongr
      _ = |c / a| / 2 ^ 24 := by rw [div_eq_mul_one_div c a, abs_mul]; ring
  have h3 := F32.rnd_err_le (c * F32.rnd (1 / a))
  have h4 : |c * F32.rnd (1 / a)| ≤ |c / a| * 2 := by
    calc |c * F32.rnd (1 / a)| = |(c * F32.rnd (1 / a) - c / a) + c / a| := by congr 1; ring
      _ ≤ |c * F32.rnd (1 / a) - c / a| + |c / a| := abs_add_le _ _
      _ ≤ |c / a| / 2 ^ 24 + |c / a| := by linarith
      _ ≤ _ := by
        have : 0 ≤ |c / a| := abs_nonneg _
        norm_num
        linarith
  calc |F32.rnd (c * F32.rnd (1 / a)) - c / a| =
      |(F32.rnd (c * F32.rnd (1 / a)) - c * F32.rnd (1 / a)) + (c * F32.rnd (1 / a) - c / a)| := by congr 1; ring
    _ ≤ |F32.rnd (c * F32.rnd (1 / a)) - c * F32.rnd (1 / a)| + |c * F32.rnd (1 / a) - c / a| := abs_add_le _ _
    _ ≤ _ := by
      have h5 : |c * F32.rnd (1 / a)| / 2 ^ 24 ≤ |c / a| * 2 / 2 ^ 24 := by gcongr
      have h6 : 0 ≤ |c / a| := abs_nonneg _
      generalize |c / a| = t at *
      have e : t / 2 ^ 22 = t * 2 / 2 ^ 24 + t / 2 ^ 24 + t / 2 ^ 24 := by ring
      have h7 : 0 ≤ t / 2 ^ 24 := by positivity
      linarith

/-- **C74.** On every x86 CPU, unpremultiplying any RGBA f32 image whose alphas are 0 or between `2^-100` and `2^100` in
magnitude gives 0 for transparent pixels and `c / a` to within one part in `2^22` (plus half the smallest float) for the others,
keeps every alpha exactly and does not touch row padding. -/
theorem C74_unpremultiply (cpu : Cpu) (bits : ℚ → ℕ) {img : Image ℚ} (hs : img.validate 4 = .ok ()) (hp : 0 < img.width)
    (hr : ∀ y x, y < img.height → x < img.width → pxD 0 img.buffer (img.strideOf 4) 4 y x 3 = 0 ∨
      1 / 2 ^ 100 ≤ |pxD 0 img.buffer (img.strideOf 4) 4 y x 3| ∧ |pxD 0 img.buffer (img.strideOf 4) 4 y x 3| ≤ 2 ^ 100) :
    ∃ out, (alphaX86F32 cpu bits).unpremultiply img = some out ∧ SameShape out img ∧ PaddingKept 4 img out ∧
      ∀ y x, y < img.height → x < img.width →
        (∀ c, c < 3 → ∃ v, sample out.buffer (img.strideOf 4) 4 y x c = some v ∧
          (pxD 0 img.buffer (img.strideOf 4) 4 y x 3 = 0 → v = 0) ∧
          (pxD 0 img.buffer (img.strideOf 4) 4 y x 3 ≠ 0 →
            |v - pxD 0 img.buffer (img.strideOf 4) 4 y x c / pxD 0 img.buffer (img.strideOf 4) 4 y x 3| ≤
              |pxD 0 img.buffer (img.strideOf 4) 4 y x c / pxD 0 img.buffer (img.strideOf 4) 4 y x 3| / 2 ^ 22 + 1 / 2 ^ 150)) ∧
        sample out.buffer (img.strideOf 4) 4 y x 3 = some (pxD 0 img.buffer (img.strideOf 4) 4 y x 3) := by
  obtain ⟨out, o1, o2, o3, o4⟩ := unpremultiplyF_spec cpu bits hs hp
  refine ⟨out, o1, o2, o3, fun y x hy hx => ⟨fun c hc => ⟨_, o4 y x c hy hx (by omega), ?_, ?_⟩, ?_⟩⟩
  · intro h0
    rw [pixelVal, if_pos hc, if_pos h0]
  · intro h0
    rw [pixelVal, if_pos hc, if_neg h0]
    have hb := (hr y x hy hx).resolve_left h0
    generalize pxD 0 img.buffer (img.strideOf 4) 4 y x 3 = a at *
    generalize pxD 0 img.buffer (img.strideOf 4) 4 y x c = v at *
    split_ifs
    · refine (F32.rnd_err_le (v / a)).trans ?_
      have : |v / a| / 2 ^ 24 ≤ |v / a| / 2 ^ 22 := by gcongr <;> norm_num
      linarith
    · exact recip_quot_err hb.1 hb.2
  · rw [o4 y x 3 hy hx (by omega), pixelVal, if_neg (by omega)]
    rfl

example : ∃ out, (alphaX86F32 ⟨true, true⟩ (fun _ => 0)).unpremultiply (Demo.flatF 9) = some out ∧
    sample out.buffer 38 4 0 8 3 = some 3 := by
  obtain ⟨out, h, _, _, h'⟩ := C74_unpremultiply ⟨true, true⟩ (fun _ => 0) (img := Demo.flatF 9) (by decide +kernel) (by decide) (by
    have key : ∀ y < 1, ∀ x < 9, pxD 0 (Demo.flatF 9).buffer ((Demo.flatF 9).strideOf 4) 4 y x 3 = 3 := by decide +kernel
    intro y x hy hx
    rw [key y hy x hx]
    right
    norm_num)
  exact ⟨out, h, (h' 0 8 (by decide) (by decide)).2.trans (by decide +kernel)⟩

/-! ### C75 -/

/-- **C75, within the vector part.** Two pixels of an RGBA f32 image with the same samples give the same unpremultiplied
samples if both columns are in full vector chunks, or neither is; and in full chunks the result is `c / a` correctly rounded.
Missing: one in a chunk and one in the remainder (`C75_violated`). -/
theorem C75_columns_partial (cpu : Cpu) (bits : ℚ → ℕ) {img : Image ℚ} (hs : img.validate 4 = .ok ()) (hp : 0 < img.width) :
    ∃ out, (alphaX86F32 cpu bits).unpremultiply img = some out ∧
      (∀ y x y' x', y < img.height → x < img.width → y' < img.height → x' < img.width →
        (∀ c, c < 4 → pxD 0 img.buffer (img.strideOf 4) 4 y x c = pxD 0 img.buffer (img.strideOf 4) 4 y' x' c) →
        (x < vectorPixels cpu img.width ↔ x' < vectorPixels cpu img.width) →
        ∀ c, c < 4 → sample out.buffer (img.strideOf 4) 4 y x c = sample out.buffer (img.strideOf 4) 4 y' x' c) ∧
      ∀ y x c, y < img.height → x < vectorPixels cpu img.width → c < 3 →
        pxD 0 img.buffer (img.strideOf 4) 4 y x 3 ≠ 0 → sample out.buffer (img.strideOf 4) 4 y x c =
          some (F32.rnd (pxD 0 img.buffer (img.strideOf 4) 4 y x c / pxD 0 img.buffer (img.strideOf 4) 4 y x 3)) := by
  obtain ⟨out, o1, o2, o3, o4⟩ := unpremultiplyF_spec cpu bits hs hp
  refine ⟨out, o1, fun y x y' x' hy hx hy' hx' he hv c hc => ?_, fun y x c hy hx hc h0 => ?_⟩
  · rw [o4 y x c hy hx hc, o4 y' x' c hy' hx' hc]
    unfold pixelVal
    dsimp only
    rw [he c hc, he 3 (by omega)]
    simp only [hv]
  · have hle : vectorPixels cpu img.width ≤ img.width := by
      unfold vectorPixels
      split_ifs <;> omega
    rw [o4 y x c hy (by omega) (by omega), pixelVal, if_pos hc, if_neg h0, if_pos hx]

example : ∃ out, (alphaX86F32 ⟨true, false⟩ (fun _ => 0)).unpremultiply (Demo.flatF 5) = some out ∧
    sample out.buffer 22 4 0 0 0 = sample out.buffer 22 4 0 3 0 := by
  obtain ⟨out, h, h', _⟩ := C75_columns_partial ⟨true, false⟩ (fun _ => 0) (img := Demo.flatF 5) (by decide +kernel) (by decide)
  exact ⟨out, h, h' 0 0 0 3 (by decide) (by decide) (by decide) (by decide) (by decide +kernel) (by decide) 0 (by decide)⟩

/-- **C75 fails between chunk and remainder**: in a row of equal pixels with colour 5 and alpha 3, the first and the
last pixel come out different on every CPU with SSE4.1 or AVX2. -/
theorem C75_violated {cpu : Cpu} (bits : ℚ → ℕ) (hcpu : cpu.avx2 = true ∨ cpu.sse41 = true) :
    ∃ out, (alphaX86F32 cpu bits).unpremultiply (Demo.flatF 9) = some out ∧
      sample out.buffer 38 4 0 0 0 ≠ sample out.buffer 38 4 0 8 0 := by
  obtain ⟨out, o1, o2, o3, o4⟩ := unpremultiplyF_spec cpu bits (img := Demo.flatF 9) (by decide +kernel) (by decide)
  refine ⟨out, o1, ?_⟩
  have h1 := o4 0 0 0 (by decide) (by decide) (by decide)
  have h2 := o4 0 8 0 (by decide) (by decide) (by decide)
  have hv : vectorPixels cpu 9 = 8 := by
    unfold vectorPixels
    rcases hcpu with h | h
    · rw [if_pos h]
    · rw [if_pos h]; split_ifs <;> rfl
  have e1 : sample out.buffer 38 4 0 0 0 = some (F32.rnd (5 / 3)) := by
    refine h1.trans ?_
    have : (0 < vectorPixels cpu (Demo.flatF 9).width) = True := by
      rw [show (Demo.flatF 9).width = 9 from rfl, hv]; simp
    simp only [this, if_true]
    decide +kernel
  have e2 : sample out.buffer 38 4 0 8 0 = some (F32.rnd (5 * F32.rnd (1 / 3))) := by
    refine h2.trans ?_
    have : (8 < vectorPixels cpu (Demo.flatF 9).width) = False := by
      rw [show (Demo.flatF 9).width = 9 from rfl, hv]; simp
    simp only [this, if_false]
    decide +kernel
  rw [e1, e2]
  decide +kernel

end PicScale
