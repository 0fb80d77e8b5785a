import Verif.Lemmas.AlphaCheck
import Verif.SpecAlphaX86
import Verif.Props.X86
import Verif.Props.AlphaResize

/-!
Property theorems about alpha handling with the x86 vector handlers: C61–C65.
-/

namespace PicScale

open Spec

/-! ### values -/

theorem div255x_err {c a : ℕ} (hc : c ≤ 255) (ha : a ≤ 255) : Premultiplied c a (div255x (c * a)) := by
  have := Nat.mul_le_mul hc ha
  unfold Premultiplied
  have e : (c : ℚ) * a = ((c * a : ℕ) : ℚ) := by push_cast; rfl
  rw [e]
  generalize c * a = v at *
  have h1 : 255 * div255x v ≤ v + 129 ∧ v ≤ 255 * div255x v + 129 := by
    unfold div255x
    omega
  have h2 : (255 : ℚ) * (div255x v : ℕ) ≤ v + 129 := by exact_mod_cast h1.1
  have h3 : (v : ℚ) ≤ 255 * (div255x v : ℕ) + 129 := by exact_mod_cast h1.2
  rw [abs_le]
  constructor
  · rw [le_sub_iff_add_le, ← sub_nonneg]
    have : ((div255x v : ℕ) : ℚ) - (-(43 / 85) + (v : ℚ) / 255) = (255 * (div255x v : ℕ) + 129 - v) / 255 := by ring
    rw [this]; apply div_nonneg <;> linarith
  · rw [← sub_nonneg]
    have : (43 / 85 : ℚ) - (((div255x v : ℕ) : ℚ) - (v : ℚ) / 255) = (v + 129 - 255 * (div255x v : ℕ)) / 255 := by ring
    rw [this]; apply div_nonneg <;> linarith

theorem recip_product {rcp : ℚ → ℚ} (hr : ReciprocalInstruction rcp) {c a : ℕ} (ha : 1 ≤ a) (ha' : a ≤ 65535) :
    |F32.mul ((c * 255 : ℕ) : ℚ) (rcp a) - 255 * c / a| ≤ 255 * c / a * (49 / 131072) + 1 / 1000000000 := by
  have haq : (0 : ℚ) < a := by exact_mod_cast ha
  have h := hr a ha ha'
  set e : ℚ := 255 * c / a with he
  have he0 : 0 ≤ e := by rw [he]; positivity
  set x : ℚ := ((c * 255 : ℕ) : ℚ) * rcp a with hx
  have hxe : x - e = e * (rcp a * a - 1) := by
    rw [hx, he]; push_cast; field_simp
  have h1 : |x - e| ≤ e * (3 / 2 ^ 13) := by
    rw [hxe, abs_mul, abs_of_nonneg he0]; gcongr
  have hxa : |x| ≤ e * 2 := by
    calc |x| = |(x - e) + e| := by congr 1; ring
      _ ≤ |x - e| + |e| := abs_add_le _ _
      _ ≤ e * (3 / 2 ^ 13) + e := by rw [abs_of_nonneg he0]; linarith
      _ ≤ e * 2 := by nlinarith
  have h2 := F32.rnd_err_le x
  unfold F32.mul
  calc |F32.rnd x - e| = |(F32.rnd x - x) + (x - e)| := by congr 1; ring
    _ ≤ |F32.rnd x - x| + |x - e| := abs_add_le _ _
    _ ≤ (e * 2 / 2 ^ 24 + 1 / 2 ^ 150) + e * (3 / 2 ^ 13) := by
      have : |x| / 2 ^ 24 ≤ e * 2 / 2 ^ 24 := by gcongr
      linarith
    _ ≤ _ := by
      have : (1 : ℚ) / 2 ^ 150 ≤ 1 / 1000000000 := by norm_num
      have : e * (49 / 131072) - (e * 2 / 2 ^ 24 + e * (3 / 2 ^ 13)) = e * (126 / 2 ^ 24) := by ring
      have : 0 ≤ e * (126 / 2 ^ 24) := by positivity
      linarith

theorem cvt1_eq {q : ℚ} (h : |q| ≤ 2 ^ 30) : cvt1 q = F32.rhe q := by
  unfold cvt1
  have hs := F32.rhe_spec q
  rw [abs_le] at h hs
  rw [if_pos]
  constructor
  · have : ((-2147483648 : ℤ) : ℚ) ≤ F32.rhe q := by push_cast; linarith
    exact_mod_cast this
  · have : ((F32.rhe q : ℤ) : ℚ) < ((2147483648 : ℤ) : ℚ) := by push_cast; linarith
    exact_mod_cast this

/-- The lane value before packing is close to `255 c / a`. -/
theorem unpremulLane_err {rcp : ℚ → ℚ} (hr : ReciprocalInstruction rcp) {c a : ℕ} (hc : c ≤ 255) (ha : 1 ≤ a)
    (ha' : a ≤ 255) :
    ∃ q : ℚ, unpremulLane rcp c a = F32.rhe q ∧ |q - 255 * c / a| ≤ 255 * c / a * (49 / 131072) + 1 / 1000000000 := by
  have h := recip_product hr (c := c) ha (by omega)
  refine ⟨_, ?_, h⟩
  unfold unpremulLane
  apply cvt1_eq
  have haq : (1 : ℚ) ≤ a := by exact_mod_cast ha
  have hcq : (c : ℚ) ≤ 255 := by exact_mod_cast hc
  have h0 : 0 ≤ 255 * (c : ℚ) / a := by positivity
  have he : 255 * (c : ℚ) / a ≤ 65025 := by
    rw [div_le_iff₀ (by linarith)]; nlinarith
  rw [abs_le] at h ⊢
  norm_num at h ⊢
  constructor <;> nlinarith

/-- Rounding and saturating a value close to `e` gives a value close to `e` saturated. -/
theorem sat_err {q e : ℚ} {v : ℤ} (hv : v = max 0 (min (F32.rhe q) 255)) (he : 0 ≤ e)
    (h : |q - e| ≤ e * (49 / 131072) + 1 / 1000000000) : |(v.toNat : ℚ) - min 255 e| ≤ 3 / 5 := by
  have hs := F32.rhe_spec q
  rw [abs_le] at hs h
  have hv0 : 0 ≤ v := by omega
  have hc : ((v.toNat : ℕ) : ℚ) = (v : ℚ) := by exact_mod_cast Int.toNat_of_nonneg hv0
  rw [hc, hv]
  push_cast
  set m : ℚ := ((F32.rhe q : ℤ) : ℚ) with hm
  rcases le_total e 256 with h1 | h1
  · rcases le_total e 255 with h2 | h2
    · rw [min_eq_right h2, abs_le]
      rcases le_total m 255 with h3 | h3
      · rw [min_eq_left h3]
        rcases le_total 0 m with h4 | h4
        · rw [max_eq_right h4]; constructor <;> linarith
        · rw [max_eq_left h4]; constructor <;> linarith
      · rw [min_eq_right h3, max_eq_right (by norm_num)]; constructor <;> linarith
    · rw [min_eq_left h2, abs_le]
      rcases le_total m 255 with h3 | h3
      · rw [min_eq_left h3]
        rw [max_eq_right (by linarith)]; constructor <;> linarith
      · rw [min_eq_right h3, max_eq_right (by norm_num)]; norm_num
  · have h3 : 255 ≤ m := by
      have : (254 : ℚ) < m := by linarith
      rw [hm] at this
      have : (254 : ℤ) < F32.rhe q := by exact_mod_cast this
      have : ((255 : ℤ) : ℚ) ≤ (F32.rhe q : ℚ) := by exact_mod_cast this
      simpa using this
    rw [min_eq_right h3, min_eq_left (by linarith), max_eq_right (by norm_num)]; norm_num

theorem unpremul_ok {rcp : ℚ → ℚ} (hr : ReciprocalInstruction rcp) {c a v : ℕ} (hc : c ≤ 255) (ha' : a ≤ 255)
    (hv0 : a = 0 → v = 0)
    (hv : a ≠ 0 → v = (max 0 (min (unpremulLane rcp c a) 255)).toNat) : Unpremultiplied c a v := by
  have hcl : (a ≠ 0 → |(v : ℚ) - min (255 : ℚ) (255 * (c : ℚ) / a)| ≤ 3 / 5) := by
    intro h0
    obtain ⟨q, q1, q2⟩ := unpremulLane_err hr hc (a := a) (by omega) ha'
    have h1 := sat_err (q := q) (v := max 0 (min (unpremulLane rcp c a) 255)) (by rw [q1]) (by positivity) q2
    rw [← hv h0] at h1
    exact h1
  refine ⟨hv0, ?_, hcl⟩
  rintro rfl
  obtain ⟨q, q1, q2⟩ := unpremulLane_err hr hc (a := 255) (by omega) (by omega)
  have hcq : (c : ℚ) ≤ 255 := by exact_mod_cast hc
  have hc0 : (0 : ℚ) ≤ c := by positivity
  have e : 255 * (c : ℚ) / ((255 : ℕ) : ℚ) = c := by push_cast; field_simp
  rw [e] at q2
  have hs := F32.rhe_spec q
  rw [abs_le] at hs q2
  have : F32.rhe q = c := by
    have h1 : (F32.rhe q : ℚ) < c + 1 := by norm_num at q2; linarith
    have h2 : (c : ℚ) < F32.rhe q + 1 := by norm_num at q2; linarith
    have h1 : F32.rhe q < c + 1 := by exact_mod_cast h1
    have h2 : (c : ℤ) < F32.rhe q + 1 := by exact_mod_cast h2
    omega
  rw [hv (by omega), q1, this]
  omega

theorem unpremulSse_ok {rcp : ℚ → ℚ} (hr : ReciprocalInstruction rcp) {c a : ℕ} (hc : c ≤ 255) (ha : a ≤ 255) :
    Unpremultiplied c a (unpremulSse rcp c a) := by
  unfold unpremulSse
  rw [Nat.mod_eq_of_lt (show c < 256 by omega), Nat.mod_eq_of_lt (show a < 256 by omega)]
  refine unpremul_ok hr hc ha (fun h => by rw [if_pos h]) fun h => ?_
  rw [if_neg h]
  rw [i16_eq_self (by omega) (by omega)]
  omega

/-- The lanes that fit 15 bits. -/
theorem lane_small {rcp : ℚ → ℚ} (hr : ReciprocalInstruction rcp) {c a : ℕ} (hc : c ≤ 255) (ha : a ≤ 255) (h0 : 1 ≤ a)
    (hs : a = 1 → c ≤ 128) : unpremulLane rcp c a ≤ 32767 := by
  obtain ⟨q, q1, q2⟩ := unpremulLane_err hr hc h0 ha
  rw [q1]
  have haq : (0 : ℚ) < a := by exact_mod_cast h0
  have he : 255 * (c : ℚ) / a ≤ 32640 := by
    rw [div_le_iff₀ haq]
    rcases Nat.lt_or_ge 1 a with h | h
    · have h2 : (2 : ℚ) ≤ a := by exact_mod_cast h
      have hcq : (c : ℚ) ≤ 255 := by exact_mod_cast hc
      linarith
    · have : a = 1 := by omega
      have hcq : (c : ℚ) ≤ 128 := by exact_mod_cast hs this
      rw [this]; push_cast; linarith
  have hs := F32.rhe_spec q
  rw [abs_le] at hs q2
  have : (F32.rhe q : ℚ) < 32768 := by norm_num at q2; linarith
  have : F32.rhe q < 32768 := by exact_mod_cast this
  omega

theorem unpremulAvx_ok {rcp : ℚ → ℚ} (hr : ReciprocalInstruction rcp) {c a : ℕ} (hc : c ≤ 255) (ha : a ≤ 255)
    (hs : a = 1 → c ≤ 128) : Unpremultiplied c a (unpremulAvx rcp c a) := by
  unfold unpremulAvx
  rw [Nat.mod_eq_of_lt (show c < 256 by omega), Nat.mod_eq_of_lt (show a < 256 by omega)]
  refine unpremul_ok hr hc ha (fun h => by rw [if_pos h]) fun h => ?_
  have := lane_small hr hc ha (by omega) hs
  rw [if_neg h]
  rw [i16_eq_self (by omega) (by omega)]
  omega

/-- Saturation to 16 bits unsigned followed by saturation from 16 bits signed: large lanes become 0. -/
theorem unpremulAvx_black {rcp : ℚ → ℚ} (hr : ReciprocalInstruction rcp) {c : ℕ} (hc : c ≤ 255) (hs : 129 ≤ c) :
    unpremulAvx rcp c 1 = 0 := by
  unfold unpremulAvx
  rw [Nat.mod_eq_of_lt (show c < 256 by omega), Nat.mod_eq_of_lt (show 1 < 256 by omega), if_neg (by omega)]
  obtain ⟨q, q1, q2⟩ := unpremulLane_err hr hc (a := 1) (by omega) (by omega)
  rw [q1]
  have hcq : (c : ℚ) ≤ 255 := by exact_mod_cast hc
  have hcq' : (129 : ℚ) ≤ c := by exact_mod_cast hs
  have hs := F32.rhe_spec q
  rw [abs_le] at hs q2
  norm_num at q2
  have h1 : (32768 : ℚ) < F32.rhe q := by linarith
  have h2 : (F32.rhe q : ℚ) < 65535 := by linarith
  have h1 : 32768 < F32.rhe q := by exact_mod_cast h1
  have h2 : F32.rhe q < 65535 := by exact_mod_cast h2
  have : i16 (max 0 (min (F32.rhe q) 65535)) < 0 := by
    rw [min_eq_left (by omega), max_eq_right (by omega)]
    unfold i16
    rw [Int.bmod_def]
    push_cast
    split <;> omega
  omega

/-! ### C61: premultiplication -/

/-- **C61.** On a CPU with SSE4.1 or AVX2, premultiplying any RGBA8 image into any image of the same
size succeeds without leaving a buffer, replaces every colour by `c * a / 255` to within 43/85 and does not
touch row padding. Alpha is kept by the SSE4.1 code; the AVX2 code multiplies alpha by itself. -/
theorem C61_premultiply {cpu : Cpu} {rcp : ℚ → ℚ} {src dst : Image ℕ} (hcpu : cpu.avx2 = true ∨ cpu.sse41 = true)
    (hs : src.validate 4 = .ok ()) (hd : dst.validate 4 = .ok ())
    (hw : src.width = dst.width) (hh : src.height = dst.height) (hp : 0 < dst.width)
    (hb : ∀ v ∈ src.buffer, v ≤ 255) :
    ∃ out, (alphaX86U8 cpu rcp).premultiply src dst = some out ∧ SameShape out dst ∧ PaddingKept 4 dst out ∧
      ∀ y x, y < dst.height → x < dst.width →
        (∀ c, c < 3 → ∃ v, sample out.buffer (dst.strideOf 4) 4 y x c = some v ∧
          Premultiplied (pxD 0 src.buffer (src.strideOf 4) 4 y x c) (alphaAt src.buffer (src.strideOf 4) y x) v) ∧
        ∃ a', sample out.buffer (dst.strideOf 4) 4 y x 3 = some a' ∧
          (cpu.avx2 = false → a' = alphaAt src.buffer (src.strideOf 4) y x) ∧
          (cpu.avx2 = true → Premultiplied (alphaAt src.buffer (src.strideOf 4) y x)
            (alphaAt src.buffer (src.strideOf 4) y x) a') := by
  have hle : ∀ y x c, pxD 0 src.buffer (src.strideOf 4) 4 y x c ≤ 255 := by
    intro y x c
    simp only [pxD, sample]
    exact getD_le_of_forall hb _
  have hcol : ∀ y x c c', Premultiplied (pxD 0 src.buffer (src.strideOf 4) 4 y x c) (pxD 0 src.buffer (src.strideOf 4) 4 y x c')
      (premulX (pxD 0 src.buffer (src.strideOf 4) 4 y x c) (pxD 0 src.buffer (src.strideOf 4) 4 y x c')) := by
    intro y x c c'
    unfold premulX
    have h1 := hle y x c
    have h2 := hle y x c'
    rw [Nat.mod_eq_of_lt (by omega), Nat.mod_eq_of_lt (by omega)]
    exact div255x_err h1 h2
  by_cases ha : cpu.avx2 = true
  · obtain ⟨out, o1, o2, o3, o4⟩ := premultiplyImageWith_spec
      (alphaChunks_ok (by norm_num) (by norm_num) avxPremulChunk_pixelwise) hs hd hw hh hp
    refine ⟨out, ?_, o2, o3, fun y x hy hx => ⟨fun c hc => ⟨_, o4 y x c hy hx (by omega), ?_⟩,
      ⟨_, o4 y x 3 hy hx (by omega), by simp [ha], fun _ => ?_⟩⟩⟩
    · unfold alphaX86U8
      simp only [ha, if_true]
      exact o1
    · rw [pixelVal, if_pos hc]; exact hcol _ _ _ _
    · rw [pixelVal, if_neg (by omega)]; exact hcol _ _ _ _
  · obtain ⟨out, o1, o2, o3, o4⟩ := premultiplyImageWith_spec
      (alphaChunks_ok (by norm_num) (by norm_num) ssePremulChunk_pixelwise) hs hd hw hh hp
    have hs4 : cpu.sse41 = true := by tauto
    refine ⟨out, ?_, o2, o3, fun y x hy hx => ⟨fun c hc => ⟨_, o4 y x c hy hx (by omega), ?_⟩,
      ⟨_, o4 y x 3 hy hx (by omega), fun _ => ?_, fun h => absurd h ha⟩⟩⟩
    · unfold alphaX86U8
      simp only [ha, if_false, hs4, if_true]
      exact o1
    · rw [pixelVal, if_pos hc]; exact hcol _ _ _ _
    · rw [pixelVal, if_neg (by omega)]
      have := hle y x 3
      exact Nat.mod_eq_of_lt (by omega)

example : ∃ out, (alphaX86U8 ⟨true, false⟩ (fun n => 1 / n)).premultiply Demo.asrc Demo.adst = some out ∧
    SameShape out Demo.adst := by
  obtain ⟨out, h, h', _⟩ := C61_premultiply (cpu := ⟨true, false⟩) (rcp := fun n => 1 / n) (src := Demo.asrc)
    (dst := Demo.adst) (by decide) (by decide) (by decide) rfl rfl (by decide) (by decide)
  exact ⟨out, h, h'⟩

/-- A premultiplied colour, exactly: fully transparent is 0, opaque is the colour. -/
theorem C61_extremes {c a v : ℕ} (h : Premultiplied c a v) : (a = 0 → v = 0) ∧ (a = 255 → v = c) ∧ (a ≤ 255 → v ≤ c) := by
  unfold Premultiplied at h
  rw [abs_le] at h
  refine ⟨?_, ?_, ?_⟩
  · rintro rfl
    have h2 : (v : ℚ) < 1 := by push_cast at h; linarith
    have h2 : v < 1 := by exact_mod_cast h2
    omega
  · rintro rfl
    push_cast at h
    have h1 : (v : ℚ) < c + 1 := by linarith
    have h2 : (c : ℚ) < v + 1 := by linarith
    have h1 : v < c + 1 := by exact_mod_cast h1
    have h2 : c < v + 1 := by exact_mod_cast h2
    omega
  · intro ha
    have haq : (a : ℚ) ≤ 255 := by exact_mod_cast ha
    have hc0 : (0 : ℚ) ≤ c := by positivity
    have : (c : ℚ) * a / 255 ≤ c := by rw [div_le_iff₀ (by norm_num)]; nlinarith
    have h1 : (v : ℚ) < c + 1 := by linarith
    have h1 : v < c + 1 := by exact_mod_cast h1
    omega

example : Premultiplied 200 128 100 := by unfold Premultiplied; norm_num [abs_le]

/-- **C66, SSE4.1.** Premultiplication with SSE4.1 keeps every alpha. Missing: AVX2 (`C66_violated`) and the scalar code. -/
theorem C66_alpha_kept_partial {rcp : ℚ → ℚ} {src dst : Image ℕ}
    (hs : src.validate 4 = .ok ()) (hd : dst.validate 4 = .ok ())
    (hw : src.width = dst.width) (hh : src.height = dst.height) (hp : 0 < dst.width)
    (hb : ∀ v ∈ src.buffer, v ≤ 255) :
    ∃ out, (alphaX86U8 ⟨true, false⟩ rcp).premultiply src dst = some out ∧
      ∀ y x, y < dst.height → x < dst.width →
        sample out.buffer (dst.strideOf 4) 4 y x 3 = some (alphaAt src.buffer (src.strideOf 4) y x) := by
  obtain ⟨out, h1, _, _, h4⟩ := C61_premultiply (cpu := ⟨true, false⟩) (rcp := rcp) (Or.inr rfl) hs hd hw hh hp hb
  refine ⟨out, h1, fun y x hy hx => ?_⟩
  obtain ⟨_, a, a1, a2, _⟩ := h4 y x hy hx
  rw [a1, a2 rfl]

example : ∃ out, (alphaX86U8 ⟨true, false⟩ (fun n => 1 / n)).premultiply Demo.asrc Demo.adst = some out := by
  obtain ⟨out, h, _⟩ := C66_alpha_kept_partial (rcp := fun n => 1 / n) (src := Demo.asrc)
    (dst := Demo.adst) (by decide) (by decide) rfl rfl (by decide) (by decide)
  exact ⟨out, h⟩

/-- **C66 fails with AVX2**: a pixel with alpha 128 has alpha 64 after premultiplication. -/
theorem C66_violated : ∃ (src dst out : Image ℕ), src.validate 4 = .ok () ∧ dst.validate 4 = .ok () ∧
    src.width = dst.width ∧ src.height = dst.height ∧ (∀ v ∈ src.buffer, v ≤ 255) ∧
    (alphaX86U8 ⟨true, true⟩ (fun n => 1 / n)).premultiply src dst = some out ∧
    sample src.buffer (src.strideOf 4) 4 0 0 3 = some 128 ∧ sample out.buffer (out.strideOf 4) 4 0 0 3 = some 64 := by
  refine ⟨Demo.asrc, Demo.adst, ⟨[100, 50, 25, 64, 10, 20, 30, 255, 3, 3], 4, 2, 1, 10, 8⟩, by decide, by decide, rfl, rfl,
    by decide, by decide +kernel, by decide, by decide⟩

/-! ### C62: unpremultiplication -/

theorem pxD_le255' {img : Image ℕ} (hb : ∀ v ∈ img.buffer, v ≤ 255) (y x c : ℕ) :
    pxD 0 img.buffer (img.strideOf 4) 4 y x c ≤ 255 := by
  simp only [pxD, sample]
  exact getD_le_of_forall hb _

/-- The values stored by unpremultiplication, for samples that need not be bytes outside the pixels. -/
theorem unpremultiply_x86 {cpu : Cpu} {rcp : ℚ → ℚ} {img : Image ℕ} (hcpu : cpu.avx2 = true ∨ cpu.sse41 = true)
    (hr : ReciprocalInstruction rcp) (hd : img.validate 4 = .ok ()) (hp : 0 < img.width)
    (hle : ∀ y x c, y < img.height → x < img.width → c < 4 → pxD 0 img.buffer (img.strideOf 4) 4 y x c ≤ 255) :
    ∃ out, (alphaX86U8 cpu rcp).unpremultiply img = some out ∧ SameShape out img ∧ PaddingKept 4 img out ∧
      ∀ y x, y < img.height → x < img.width →
        (∀ c, c < 3 → ∃ v, sample out.buffer (img.strideOf 4) 4 y x c = some v ∧
          ((cpu.avx2 = false ∨ alphaAt img.buffer (img.strideOf 4) y x ≠ 1 ∨ pxD 0 img.buffer (img.strideOf 4) 4 y x c ≤ 128) →
            Unpremultiplied (pxD 0 img.buffer (img.strideOf 4) 4 y x c) (alphaAt img.buffer (img.strideOf 4) y x) v) ∧
          (¬ (cpu.avx2 = false ∨ alphaAt img.buffer (img.strideOf 4) y x ≠ 1 ∨
            pxD 0 img.buffer (img.strideOf 4) 4 y x c ≤ 128) → v = 0)) ∧
        sample out.buffer (img.strideOf 4) 4 y x 3 = some (alphaAt img.buffer (img.strideOf 4) y x) := by
  by_cases ha : cpu.avx2 = true
  · obtain ⟨out, o1, o2, o3, o4⟩ := unpremultiplyImageWith_spec
      (alphaChunksInPlace_ok (by norm_num) (by norm_num) (avxUnpremulChunk_pixelwise rcp)) hd hp
    refine ⟨out, ?_, o2, o3, fun y x hy hx => ⟨fun c hc => ⟨_, o4 y x c hy hx (by omega), fun h => ?_, fun h => ?_⟩, ?_⟩⟩
    · unfold alphaX86U8
      simp only [ha, if_true]
      exact o1
    · rw [pixelVal, if_pos hc]
      refine unpremulAvx_ok hr (hle y x c hy hx (by omega)) (hle y x 3 hy hx (by omega)) fun h1 => ?_
      rcases h with h | h | h
      · rw [ha] at h; exact absurd h (by decide)
      · exact absurd h1 h
      · exact h
    · push Not at h
      rw [pixelVal, if_pos hc]
      have h1 : pxD 0 img.buffer (img.strideOf 4) 4 y x 3 = 1 := h.2.1
      rw [h1]
      exact unpremulAvx_black hr (hle y x c hy hx (by omega)) h.2.2
    · rw [o4 y x 3 hy hx (by omega), pixelVal, if_neg (by omega)]
      have := hle y x 3 hy hx (by omega)
      congr 1
      exact Nat.mod_eq_of_lt (by omega)
  · have hf : cpu.avx2 = false := by simpa using ha
    have hs4 : cpu.sse41 = true := by tauto
    obtain ⟨out, o1, o2, o3, o4⟩ := unpremultiplyImageWith_spec
      (alphaChunksInPlace_ok (by norm_num) (by norm_num) (sseUnpremulChunk_pixelwise rcp)) hd hp
    refine ⟨out, ?_, o2, o3, fun y x hy hx => ⟨fun c hc => ⟨_, o4 y x c hy hx (by omega), fun h => ?_,
      fun h => absurd (Or.inl hf) h⟩, ?_⟩⟩
    · unfold alphaX86U8
      simp only [hf, hs4, if_true, Bool.false_eq_true, if_false]
      exact o1
    · rw [pixelVal, if_pos hc]
      exact unpremulSse_ok hr (hle y x c hy hx (by omega)) (hle y x 3 hy hx (by omega))
    · rw [o4 y x 3 hy hx (by omega), pixelVal, if_neg (by omega)]
      have := hle y x 3 hy hx (by omega)
      congr 1
      exact Nat.mod_eq_of_lt (by omega)

/-- **C62.** On a CPU with SSE4.1 or AVX2, unpremultiplying any RGBA8 image succeeds without leaving a buffer,
replaces every colour by `min(255, 255 c / a)` to within 3/5 (0 for a transparent pixel, the colour itself for
an opaque one), keeps alpha and does not touch row padding; the only exceptions are colours above 128 with
alpha 1 on a CPU with AVX2 (`C62_violated`). -/
theorem C62_unpremultiply_partial {cpu : Cpu} {rcp : ℚ → ℚ} {img : Image ℕ} (hcpu : cpu.avx2 = true ∨ cpu.sse41 = true)
    (hr : ReciprocalInstruction rcp) (hd : img.validate 4 = .ok ()) (hp : 0 < img.width)
    (hb : ∀ v ∈ img.buffer, v ≤ 255) :
    ∃ out, (alphaX86U8 cpu rcp).unpremultiply img = some out ∧ SameShape out img ∧ PaddingKept 4 img out ∧
      ∀ y x, y < img.height → x < img.width →
        (∀ c, c < 3 →
          (cpu.avx2 = false ∨ alphaAt img.buffer (img.strideOf 4) y x ≠ 1 ∨ pxD 0 img.buffer (img.strideOf 4) 4 y x c ≤ 128) →
          ∃ v, sample out.buffer (img.strideOf 4) 4 y x c = some v ∧
            Unpremultiplied (pxD 0 img.buffer (img.strideOf 4) 4 y x c) (alphaAt img.buffer (img.strideOf 4) y x) v) ∧
        sample out.buffer (img.strideOf 4) 4 y x 3 = some (alphaAt img.buffer (img.strideOf 4) y x) := by
  obtain ⟨out, o1, o2, o3, o4⟩ := unpremultiply_x86 hcpu hr hd hp (fun y x c _ _ _ => pxD_le255' hb y x c)
  refine ⟨out, o1, o2, o3, fun y x hy hx => ⟨fun c hc h => ?_, (o4 y x hy hx).2⟩⟩
  obtain ⟨v, v1, v2, _⟩ := (o4 y x hy hx).1 c hc
  exact ⟨v, v1, v2 h⟩

/-- Exact division is a reciprocal instruction. -/
theorem exact_reciprocal : ReciprocalInstruction fun n => 1 / n := by
  intro n h1 _
  have : (n : ℚ) ≠ 0 := by exact_mod_cast (show n ≠ 0 by omega)
  rw [one_div_mul_cancel this]
  norm_num

example : ∃ out, (alphaX86U8 ⟨true, true⟩ fun n => 1 / n).unpremultiply Demo.apre = some out ∧ PaddingKept 4 Demo.apre out := by
  obtain ⟨out, h, _, h', _⟩ := C62_unpremultiply_partial (cpu := ⟨true, true⟩) (img := Demo.apre) (by decide) exact_reciprocal
    (by decide) (by decide) (by decide)
  exact ⟨out, h, h'⟩

/-- An image with alpha 1. -/
def Demo.aone : Image ℕ :=
  { buffer := [200, 0, 0, 1], channels := 4, width := 1, height := 1, stride := 4, bitDepth := 8 }

/-- **C62 fails with AVX2**, whatever the reciprocal instruction returns within its specification: colour 200
with alpha 1 becomes 0; the SSE4.1 code saturates to 255. -/
theorem C62_violated {rcp : ℚ → ℚ} (hr : ReciprocalInstruction rcp) :
    ∃ avx sse, (alphaX86U8 ⟨true, true⟩ rcp).unpremultiply Demo.aone = some avx ∧
      (alphaX86U8 ⟨true, false⟩ rcp).unpremultiply Demo.aone = some sse ∧
      sample avx.buffer 4 4 0 0 0 = some 0 ∧ sample sse.buffer 4 4 0 0 0 = some 255 := by
  obtain ⟨avx, a1, _, _, a4⟩ := unpremultiply_x86 (cpu := ⟨true, true⟩) (img := Demo.aone) (by decide) hr (by decide) (by decide)
    (fun y x c _ _ _ => pxD_le255' (by decide) y x c)
  obtain ⟨sse, s1, _, _, s4⟩ := unpremultiply_x86 (cpu := ⟨true, false⟩) (img := Demo.aone) (by decide) hr (by decide) (by decide)
    (fun y x c _ _ _ => pxD_le255' (by decide) y x c)
  have h4 : Demo.aone.strideOf 4 = 4 := by decide
  obtain ⟨v, v1, _, v3⟩ := (a4 0 0 (by decide) (by decide)).1 0 (by decide)
  obtain ⟨u, u1, u2, _⟩ := (s4 0 0 (by decide) (by decide)).1 0 (by decide)
  rw [h4] at v1 u1
  refine ⟨avx, sse, a1, s1, ?_, ?_⟩
  · rw [v1, v3 (by decide)]
  · rw [u1]
    have hu := (u2 (Or.inl rfl)).2.2
    have e1 : pxD 0 Demo.aone.buffer (Demo.aone.strideOf 4) 4 0 0 0 = 200 := by decide
    have e2 : alphaAt Demo.aone.buffer (Demo.aone.strideOf 4) 0 0 = 1 := by decide
    rw [e1, e2] at hu
    have hu := hu (by decide)
    norm_num [abs_le] at hu
    have h1 : (254 : ℚ) < u := by linarith
    have h2 : (u : ℚ) < 256 := by linarith
    have h1 : 254 < u := by exact_mod_cast h1
    have h2 : u < 256 := by exact_mod_cast h2
    congr 1; omega

/-! ### C64: the alpha checks -/

/-- **C64.** On x86 the check that decides whether premultiplication is needed says so iff two pixels differ
in alpha: RGBA8 images less than 2^24 pixels wide on every CPU; RGBA16 images up to 32768 pixels wide. Row
padding does not matter. -/
theorem C64_alpha_check_partial {cpu : Cpu} {rcp : ℚ → ℚ} {img : Image ℕ} (hv : img.validate 4 = .ok ())
    (hw : 0 < img.width) (hh : 0 < img.height) :
    ((∀ v ∈ img.buffer, v ≤ 255) → img.width < 2 ^ 24 → ((alphaX86U8 cpu rcp).isNeeded img = true ↔ AlphaVaries img)) ∧
    ((∀ v ∈ img.buffer, v ≤ 65535) → img.width ≤ 32768 → (alphaNeededX86U16 cpu img = true ↔ AlphaVaries img)) := by
  obtain ⟨hl, hs⟩ := validate_facts hv
  constructor
  · intro hb hw'
    unfold alphaX86U8
    dsimp only
    split_ifs
    · exact alphaVariesBy_iff (k := 8) avxAlphaRow8_ok hl hs hw hh (fun v hv => by have := hb v hv; omega) (by norm_num; omega)
    · exact alphaVariesBy_iff (k := 8) sseAlphaRow8_ok hl hs hw hh (fun v hv => by have := hb v hv; omega) (by norm_num; omega)
    · exact hasNonConstantAlpha_iff (k := 8) hl hs hw hh (fun v hv => by have := hb v hv; omega) (by omega)
  · intro hb hw'
    unfold alphaNeededX86U16
    split_ifs
    · exact alphaVariesBy_iff (k := 16) avxAlphaRow16_ok hl hs hw hh (fun v hv => by have := hb v hv; omega) (by norm_num; omega)
    · exact alphaVariesBy_iff (k := 16) sseAlphaRow16_ok hl hs hw hh (fun v hv => by have := hb v hv; omega) (by norm_num; omega)
    · exact hasNonConstantAlpha_iff (k := 16) hl hs hw hh (fun v hv => by have := hb v hv; omega) (by omega)

/-- Two pixels of different alpha and one of equal alpha. -/
example : (alphaX86U8 ⟨true, true⟩ fun n => 1 / n).isNeeded Demo.asrc = true ∧ AlphaVaries Demo.asrc := by
  have h : (alphaX86U8 ⟨true, true⟩ fun n => 1 / n).isNeeded Demo.asrc = true := by decide +kernel
  exact ⟨h, ((C64_alpha_check_partial (by decide) (by decide) (by decide)).1 (by decide) (by decide)).1 h⟩

/-- An RGBA16 image of two rows of `n` pixels: alpha 0 in the first, 32768 in the second. -/
def Demo.wide16 (n : ℕ) : Image ℕ :=
  { buffer := List.replicate (4 * n) 0 ++ List.replicate (4 * n) 32768, channels := 4, width := n, height := 2,
    stride := 4 * n, bitDepth := 16 }

theorem alphaSum_replicate {first v n : ℕ} : alphaSum first (List.replicate (4 * n) v) = n * (v ^^^ first) := by
  unfold alphaSum
  rw [List.length_replicate, Nat.mul_div_cancel_left _ (by omega), Finset.sum_congr rfl (g := fun _ => v ^^^ first)]
  · simp
  · intro i hi
    rw [Finset.mem_range] at hi
    rw [List.getD_eq_getElem?_getD, List.getElem?_replicate, if_pos (by omega), Option.getD_some]

theorem wide16_rows {n : ℕ} (hn : 0 < n) (hn' : n % 131072 = 0) (rowSum : ℕ → List ℕ → ℤ)
    (h : ∀ first v, first ≤ 65535 → v ≤ 65535 → rowSum first (List.replicate (4 * n) v) = i32 ((n * (v ^^^ first) : ℕ) : ℤ)) :
    alphaVariesBy rowSum (Demo.wide16 n).buffer n (4 * n) = false := by
  have e1 : chunksExact (4 * n) (Demo.wide16 n).buffer = [List.replicate (4 * n) 0, List.replicate (4 * n) 32768] := by
    unfold chunksExact Demo.wide16
    have hl : (List.replicate (4 * n) 0 ++ List.replicate (4 * n) 32768).length / (4 * n) = 2 := by
      rw [List.length_append, List.length_replicate, List.length_replicate, ← Nat.two_mul, Nat.mul_div_cancel _ (by omega)]
    dsimp only
    rw [hl]
    have h0 : ((List.replicate (4 * n) 0 ++ List.replicate (4 * n) 32768).drop (0 * (4 * n))).take (4 * n) = List.replicate (4 * n) 0 := by
      rw [Nat.zero_mul, List.drop_zero, List.take_left' (List.length_replicate ..)]
    have h1 : ((List.replicate (4 * n) 0 ++ List.replicate (4 * n) 32768).drop (1 * (4 * n))).take (4 * n) = List.replicate (4 * n) 32768 := by
      rw [Nat.one_mul, List.drop_left' (List.length_replicate ..), List.take_of_length_le (by rw [List.length_replicate])]
    rw [show List.range 2 = [0, 1] from rfl, List.map_cons, List.map_cons, List.map_nil, h0, h1]
  have e2 : (Demo.wide16 n).buffer.getD 3 0 = 0 := by
    unfold Demo.wide16
    dsimp only
    rw [List.getD_eq_getElem?_getD, List.getElem?_append_left (by rw [List.length_replicate]; omega), List.getElem?_replicate,
      if_pos (by omega), Option.getD_some]
  have e3 : (Demo.wide16 n).buffer ≠ [] := by
    intro h0
    rw [h0] at e1
    simp [chunksExact] at e1
  unfold alphaVariesBy
  rw [if_neg e3, e1, e2]
  have ht : ∀ v : ℕ, (List.replicate (4 * n) v).take (n * 4) = List.replicate (4 * n) v := by
    intro v; rw [List.take_of_length_le (by rw [List.length_replicate]; omega)]
  have hz : i32 ((n * (32768 ^^^ 0) : ℕ) : ℤ) = 0 := by
    rw [Nat.xor_zero]
    unfold i32
    rw [Int.bmod_def]
    push_cast
    split <;> omega
  simp only [List.any_cons, List.any_nil, ht, h 0 0 (Nat.zero_le _) (Nat.zero_le _), h 0 32768 (Nat.zero_le _) (by norm_num), hz]
  simp [i32]

/-- **C64 fails for wide RGBA16 images**: the row sums are 32 bits wide. In a row of 131072 pixels (or any
multiple) whose alpha differs by 32768 from that of the first row the differences add up to a multiple of
`2^32`, and the image counts as one of constant alpha. The scalar check, with 64-bit sums, sees the difference. -/
theorem C64_violated {n : ℕ} (hn : 0 < n) (hn' : n % 131072 = 0) (hn2 : n < 2 ^ 47) :
    (Demo.wide16 n).validate 4 = .ok () ∧ (∀ v ∈ (Demo.wide16 n).buffer, v ≤ 65535) ∧ AlphaVaries (Demo.wide16 n) ∧
    alphaNeededX86U16 ⟨true, true⟩ (Demo.wide16 n) = false ∧ alphaNeededX86U16 ⟨true, false⟩ (Demo.wide16 n) = false ∧
    alphaNeededX86U16 ⟨false, false⟩ (Demo.wide16 n) = true := by
  have hlen : (Demo.wide16 n).buffer.length = 4 * n * 2 := by
    unfold Demo.wide16
    dsimp only
    rw [List.length_append, List.length_replicate, List.length_replicate, Nat.mul_two]
  have hstr : (Demo.wide16 n).strideOf 4 = 4 * n := by
    unfold Image.strideOf Demo.wide16
    dsimp only
    rw [if_neg (by omega)]
  have hval : (Demo.wide16 n).validate 4 = .ok () := by
    unfold Image.validate
    rw [hlen, hstr]
    have h1 : (Demo.wide16 n).height = 2 := rfl
    have h2 : (Demo.wide16 n).width = n := rfl
    have h3 : (Demo.wide16 n).stride = 4 * n := rfl
    rw [h1, h2]
    dsimp only
    rw [if_neg (by simp), if_neg (by simp; omega)]
  have hb : ∀ v ∈ (Demo.wide16 n).buffer, v ≤ 65535 := by
    intro v hv
    unfold Demo.wide16 at hv
    rcases List.mem_append.1 hv with h | h
    · have := List.eq_of_mem_replicate h; omega
    · have := List.eq_of_mem_replicate h; omega
  have hvar : AlphaVaries (Demo.wide16 n) := by
    refine ⟨0, 0, 1, 0, Nat.zero_lt_two, hn, Nat.one_lt_two, hn, ?_⟩
    rw [hstr]
    unfold alphaAt pxD sample Demo.wide16
    dsimp only
    rw [List.getElem?_append_left (by rw [List.length_replicate]; omega), List.getElem?_replicate, if_pos (by omega),
      List.getElem?_append_right (by rw [List.length_replicate]; omega), List.length_replicate, List.getElem?_replicate,
        if_pos (by omega)]
    norm_num
  have hsum : ∀ first v, alphaSum first (List.replicate (4 * n) v) = n * (v ^^^ first) := by
    intro first v
    exact alphaSum_replicate
  refine ⟨hval, hb, hvar, ?_, ?_, ?_⟩
  · unfold alphaNeededX86U16
    rw [if_pos rfl, hstr]
    refine wide16_rows hn hn' _ fun first v hf hv => ?_
    rw [avxAlphaRow16_exact hf (fun u hu => by have := List.eq_of_mem_replicate hu; omega)
      (by rw [List.length_replicate]; omega), hsum]
  · unfold alphaNeededX86U16
    rw [if_neg (by decide), if_pos rfl, hstr]
    refine wide16_rows hn hn' _ fun first v hf hv => ?_
    rw [sseAlphaRow16_exact hf (fun u hu => by have := List.eq_of_mem_replicate hu; omega)
      (by rw [List.length_replicate]; omega), hsum]
  · exact ((C37_alpha_check hval hn Nat.zero_lt_two).2 hb hn2).2 hvar

example : AlphaVaries (Demo.wide16 131072) := (C64_violated (by norm_num) (by norm_num) (by norm_num)).2.2.1

end PicScale
