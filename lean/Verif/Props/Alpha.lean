import Verif.Lemmas.Alpha
import Verif.SpecAlpha
import Verif.Props.Resize

/-!
Property theorems about alpha handling (scalar paths): C31-C38.
-/

namespace PicScale

open Spec

theorem roundDiv_eq {a b : ℕ} (hb : 0 < b) : roundDiv a b = (2 * a + b) / (2 * b) := by
  unfold roundDiv
  have : (a : ℚ) / b + 1 / 2 = ((2 * a + b : ℕ) : ℚ) / ((2 * b : ℕ) : ℚ) := by
    have : (b : ℚ) ≠ 0 := by exact_mod_cast hb.ne'
    push_cast; field_simp
  rw [this, Rat.floor_natCast_div_natCast]
  exact_mod_cast Int.toNat_natCast _

/-! ### C31 -/

/-- **C31.** The four division tricks give the exactly rounded quotient for every product of two
in-range samples. -/
theorem C31_division :
    (∀ c a, c ≤ 255 → a ≤ 255 → divBy255 (c * a) = roundDiv (c * a) 255) ∧
    (∀ c a, c ≤ 1023 → a ≤ 1023 → divBy1023 (c * a) = roundDiv (c * a) 1023) ∧
    (∀ c a, c ≤ 4095 → a ≤ 4095 → divBy4095 (c * a) = roundDiv (c * a) 4095) ∧
    (∀ c a, c ≤ 65535 → a ≤ 65535 → divBy65535 (c * a) = roundDiv (c * a) 65535) := by
  refine ⟨fun c a hc ha => ?_, fun c a hc ha => ?_, fun c a hc ha => ?_, fun c a hc ha => ?_⟩
  · have := Nat.mul_le_mul hc ha
    rw [roundDiv_eq (by omega)]
    generalize c * a = v at *
    simp only [divBy255, Nat.shiftRight_eq_div_pow]
    omega
  · have := Nat.mul_le_mul hc ha
    rw [roundDiv_eq (by omega)]
    generalize c * a = v at *
    simp only [divBy1023, Nat.shiftRight_eq_div_pow]
    omega
  · have := Nat.mul_le_mul hc ha
    rw [roundDiv_eq (by omega)]
    generalize c * a = v at *
    simp only [divBy4095, Nat.shiftRight_eq_div_pow]
    omega
  · have := Nat.mul_le_mul hc ha
    rw [roundDiv_eq (by omega)]
    generalize c * a = v at *
    simp only [divBy65535, Nat.shiftRight_eq_div_pow]
    omega

/-- **C31**, second part: the intermediate sums fit the integer type of the argument (`u16` for 255,
`u32` for the others), so the machine arithmetic is the arithmetic of `C31_division`. -/
theorem C31_no_overflow :
    (∀ c a, c ≤ 255 → a ≤ 255 → ((c * a + 0x80) >>> 8) + c * a + 0x80 < 2 ^ 16) ∧
    (∀ c a, c ≤ 65535 → a ≤ 65535 → ((c * a + 2 ^ 15) >>> 16) + (c * a + 2 ^ 15) < 2 ^ 32) := by
  refine ⟨fun c a hc ha => ?_, fun c a hc ha => ?_⟩ <;>
  · have := Nat.mul_le_mul hc ha
    generalize c * a = v at *
    simp only [Nat.shiftRight_eq_div_pow]
    omega

example : divBy255 (200 * 128) = 100 ∧ divBy65535 (65535 * 65535) = 65535 := by decide

/-! ### C32 -/

namespace Demo
/-- A 2×1 RGBA image with padding. -/
def asrc : Image ℕ :=
  { buffer := [200, 100, 50, 128, 10, 20, 30, 255, 7], channels := 4, width := 2, height := 1, stride := 9, bitDepth := 8 }
def adst : Image ℕ :=
  { buffer := List.replicate 10 3, channels := 4, width := 2, height := 1, stride := 10, bitDepth := 8 }
end Demo

/-- **C32, exact effect.** Premultiplication of any RGBA8 image into any image of the same size
succeeds, replaces every colour by `round(c * a / 255)` as promised — but also replaces alpha by
`round(a * a / 255)`; row padding is not written. Missing from C32: alpha unchanged (it is not, see
`C32_violated`). -/
theorem C32_premultiply_partial {src dst : Image ℕ} (hs : src.validate 4 = .ok ()) (hd : dst.validate 4 = .ok ())
    (hw : src.width = dst.width) (hh : src.height = dst.height) (hp : 0 < dst.width)
    (hb : ∀ v ∈ src.buffer, v ≤ 255) :
    ∃ out, alphaU8.premultiply src dst = some out ∧ SameShape out dst ∧ PaddingKept 4 dst out ∧
      ∀ y x, y < dst.height → x < dst.width →
        (∀ c, c < 3 → sample out.buffer (dst.strideOf 4) 4 y x c =
          some (roundDiv (pxD 0 src.buffer (src.strideOf 4) 4 y x c * alphaAt src.buffer (src.strideOf 4) y x) 255)) ∧
        sample out.buffer (dst.strideOf 4) 4 y x 3 =
          some (roundDiv (alphaAt src.buffer (src.strideOf 4) y x * alphaAt src.buffer (src.strideOf 4) y x) 255) := by
  obtain ⟨out, o1, o2, o3, o4⟩ := premultiplyImage_spec (fun c a => divBy255 (c * a)) (fun a => divBy255 (a * a)) 0
    hs hd hw hh hp
  have hle : ∀ y x c, pxD 0 src.buffer (src.strideOf 4) 4 y x c ≤ 255 := by
    intro y x c
    simp only [pxD, sample]
    exact getD_le_of_forall hb _
  refine ⟨out, o1, o2, o3, fun y x hy hx => ⟨fun c hc => ?_, ?_⟩⟩
  · rw [o4 y x c hy hx (by omega), pixelVal, if_pos hc, C31_division.1 _ _ (hle _ _ _) (hle _ _ _)]; rfl
  · rw [o4 y x 3 hy hx (by omega), pixelVal, if_neg (by omega), C31_division.1 _ _ (hle _ _ _) (hle _ _ _)]; rfl

example : ∃ out, alphaU8.premultiply Demo.asrc Demo.adst = some out ∧ SameShape out Demo.adst := by
  obtain ⟨out, h, h', _⟩ := C32_premultiply_partial (src := Demo.asrc) (dst := Demo.adst) (by decide) (by decide)
    rfl rfl (by decide) (by decide)
  exact ⟨out, h, h'⟩

/-- Squaring keeps only alpha 0 and 255. -/
theorem C32_alpha_kept_iff (a : ℕ) (ha : a ≤ 255) : roundDiv (a * a) 255 = a ↔ a = 0 ∨ a = 255 := by
  rw [roundDiv_eq (by omega)]
  constructor
  · intro h
    by_contra hc
    have h1 : 1 ≤ a := by omega
    have h2 : a ≤ 254 := by omega
    have : (2 * (a * a) + 255) / (2 * 255) < a := by
      rw [Nat.div_lt_iff_lt_mul (by omega)]
      rcases Nat.lt_or_ge a 254 with h | h
      · nlinarith
      · have : a = 254 := by omega
        subst this; decide
    omega
  · rintro (rfl | rfl) <;> decide

/-- **C32 fails**: a pixel with alpha 128 has alpha 64 after premultiplication. -/
theorem C32_violated : ∃ (src dst out : Image ℕ), src.validate 4 = .ok () ∧ dst.validate 4 = .ok () ∧
    src.width = dst.width ∧ src.height = dst.height ∧ (∀ v ∈ src.buffer, v ≤ 255) ∧
    alphaU8.premultiply src dst = some out ∧
    sample src.buffer (src.strideOf 4) 4 0 0 3 = some 128 ∧ sample out.buffer (out.strideOf 4) 4 0 0 3 = some 64 := by
  refine ⟨Demo.asrc, Demo.adst, _, by decide, by decide, rfl, rfl, by decide, rfl, by decide, by decide⟩

/-! ### C33 -/

theorem unpremul_value {a c : ℕ} (ha : a ≤ 255) (hc : c ≤ a) :
    unpremulTable (a * 255 + c) = if a = 0 then 0 else roundDiv (c * 255) a := by
  rw [unpremulTable_entry ha (by omega) (by omega)]
  unfold unpremulEntry
  split_ifs with h
  · rfl
  · rw [roundDiv_eq (by omega), ndiv_eq h]
    have h0 : 0 < a := by omega
    have hle : (c * 255 + a / 2) / a ≤ 255 := by
      apply Nat.le_of_lt_succ
      rw [Nat.div_lt_iff_lt_mul h0]
      have : c * 255 ≤ a * 255 := Nat.mul_le_mul_right _ hc
      omega
    rw [Nat.mod_eq_of_lt (by omega)]
    have e : (2 * (c * 255) + a) / (2 * a) = (2 * (c * 255) + a) / 2 / a := (Nat.div_div_eq_div_mul _ _ _).symm
    rw [e]
    congr 1
    omega

/-- **C33 for premultiplied pixels.** If every colour of the image is at most its alpha,
unpremultiplication succeeds, replaces each colour `p` by `round(255 * p / a)` (0 if `a = 0`), keeps
alpha and does not touch the padding. Missing: the saturation of out-of-range colours, which is false
(`C33_violated`). -/
theorem C33_unpremultiply_partial {img : Image ℕ} (hd : img.validate 4 = .ok ()) (hp : 0 < img.width)
    (hb : ∀ v ∈ img.buffer, v ≤ 255)
    (hpre : ∀ y x c, y < img.height → x < img.width → c < 3 →
      pxD 0 img.buffer (img.strideOf 4) 4 y x c ≤ alphaAt img.buffer (img.strideOf 4) y x) :
    ∃ out, alphaU8.unpremultiply img = some out ∧ SameShape out img ∧ PaddingKept 4 img out ∧
      ∀ y x, y < img.height → x < img.width →
        (∀ c, c < 3 → sample out.buffer (img.strideOf 4) 4 y x c =
          some (if alphaAt img.buffer (img.strideOf 4) y x = 0 then 0 else
            roundDiv (pxD 0 img.buffer (img.strideOf 4) 4 y x c * 255) (alphaAt img.buffer (img.strideOf 4) y x))) ∧
        sample out.buffer (img.strideOf 4) 4 y x 3 = some (alphaAt img.buffer (img.strideOf 4) y x) := by
  obtain ⟨out, o1, o2, o3, o4⟩ := unpremultiplyImage_spec (fun c a => unpremulTable (a * 255 + c)) (fun a => a) 0 hd hp
  have hle : ∀ y x c, pxD 0 img.buffer (img.strideOf 4) 4 y x c ≤ 255 := by
    intro y x c
    simp only [pxD, sample]
    exact getD_le_of_forall hb _
  refine ⟨out, o1, o2, o3, fun y x hy hx => ⟨fun c hc => ?_, ?_⟩⟩
  · rw [o4 y x c hy hx (by omega), pixelVal, if_pos hc, unpremul_value (hle _ _ _) (hpre y x c hy hx hc)]; rfl
  · rw [o4 y x 3 hy hx (by omega), pixelVal, if_neg (by omega)]; rfl

/-- A premultiplied 2×1 image. -/
def Demo.apre : Image ℕ :=
  { buffer := [100, 50, 25, 128, 10, 20, 30, 255, 7], channels := 4, width := 2, height := 1, stride := 9, bitDepth := 8 }

example : ∃ out, alphaU8.unpremultiply Demo.apre = some out ∧ PaddingKept 4 Demo.apre out := by
  obtain ⟨out, h, _, h', _⟩ := C33_unpremultiply_partial (img := Demo.apre) (by decide) (by decide) (by decide) (by
    have : ∀ y < 1, ∀ x < 2, ∀ c < 3, pxD 0 Demo.apre.buffer (Demo.apre.strideOf 4) 4 y x c ≤
        alphaAt Demo.apre.buffer (Demo.apre.strideOf 4) y x := by decide
    exact fun y x c hy hx hc => this y hy x hx c hc)
  exact ⟨out, h, h'⟩

attribute [local irreducible] unpremulTable in
/-- **C33 fails for out-of-range colours**: they do not saturate. Colour 2 with alpha 1 becomes 254
and colour 255 with alpha 254 becomes 0: the brightest pixel turns black. -/
theorem C33_violated : ∃ (img out : Image ℕ), img.validate 4 = .ok () ∧ alphaU8.unpremultiply img = some out ∧
    img.buffer = [2, 0, 0, 1, 255, 0, 0, 254] ∧
    sample out.buffer (out.strideOf 4) 4 0 0 0 = some 254 ∧ sample out.buffer (out.strideOf 4) 4 0 1 0 = some 0 := by
  obtain ⟨out, o1, o2, _, o4⟩ := unpremultiplyImage_spec (fun c a => unpremulTable (a * 255 + c)) (fun a => a) 0
    (img := { buffer := [2, 0, 0, 1, 255, 0, 0, 254], channels := 4, width := 2, height := 1, stride := 8, bitDepth := 8 })
    (by decide) (by decide)
  refine ⟨_, out, by decide, o1, rfl, ?_, ?_⟩
  · have : out.strideOf 4 = 8 := by
      obtain ⟨w, _, s, _⟩ := o2
      unfold Image.strideOf; rw [s, w]; rfl
    rw [this]
    have := o4 0 0 0 (by decide) (by decide) (by decide)
    refine this.trans ?_
    show some (unpremulTable 257) = _
    rw [unpremulTable_eq _ (by norm_num)]; decide
  · have : out.strideOf 4 = 8 := by
      obtain ⟨w, _, s, _⟩ := o2
      unfold Image.strideOf; rw [s, w]; rfl
    rw [this]
    have := o4 0 1 0 (by decide) (by decide) (by decide)
    refine this.trans ?_
    show some (unpremulTable 65025) = _
    rw [unpremulTable_eq _ (by norm_num)]; decide

/-! ### C34 -/

theorem roundDiv_err (a b : ℕ) : |((roundDiv a b : ℕ) : ℚ) - (a : ℚ) / b| ≤ 1 / 2 := by
  unfold roundDiv
  have h0 : 0 ≤ ⌊(a : ℚ) / b + 1 / 2⌋ := Int.floor_nonneg.2 (by positivity)
  have e : ((⌊(a : ℚ) / b + 1 / 2⌋.toNat : ℕ) : ℚ) = (⌊(a : ℚ) / b + 1 / 2⌋ : ℚ) := by
    have := Int.toNat_of_nonneg h0
    exact_mod_cast this
  rw [e, abs_le]
  have h1 := Int.floor_le ((a : ℚ) / b + 1 / 2)
  have h2 := Int.lt_floor_add_one ((a : ℚ) / b + 1 / 2)
  constructor <;> linarith

/-- **C34, with alpha carried over.** If the alpha of a premultiplied pixel were the original alpha,
unpremultiplication would return each colour within `128 / a + 1`, and exactly for `a = 255`.
`premultiplyPixel8` and `unpremultiplyPixel8` are the bodies of the loops; the pixel passed to the second
is the first one's colours with the original alpha `a`. Missing: the code passes on `round(a * a / 255)`
instead of `a` (`C34_violated`). -/
theorem C34_round_trip_partial {r g b a : ℕ} (hr : r ≤ 255) (hg : g ≤ 255) (hb : b ≤ 255) (ha : a ≤ 255)
    (ha0 : 0 < a) :
    ∃ r1 g1 b1 a1 r2 g2 b2, premultiplyPixel8 [r, g, b, a] = some [r1, g1, b1, a1] ∧
      unpremultiplyPixel8 [r1, g1, b1, a] = some [r2, g2, b2, a] ∧
      (|(r2 : ℚ) - r| ≤ 128 / a + 1 ∧ |(g2 : ℚ) - g| ≤ 128 / a + 1 ∧ |(b2 : ℚ) - b| ≤ 128 / a + 1) ∧
      (a = 255 → r2 = r ∧ g2 = g ∧ b2 = b) := by
  have key : ∀ c, c ≤ 255 → |((unpremulTable (a * 255 + divBy255 (c * a)) : ℕ) : ℚ) - c| ≤ 128 / a + 1 ∧
      (a = 255 → unpremulTable (a * 255 + divBy255 (c * a)) = c) := by
    intro c hc
    rw [C31_division.1 c a hc ha]
    have hp : roundDiv (c * a) 255 ≤ a := by
      rw [roundDiv_eq (by omega)]
      apply Nat.le_of_lt_succ
      rw [Nat.div_lt_iff_lt_mul (by omega)]
      have : c * a ≤ 255 * a := Nat.mul_le_mul_right _ hc
      omega
    rw [unpremul_value ha hp, if_neg (by omega)]
    constructor
    · have e1 := roundDiv_err (c * a) 255
      have e2 := roundDiv_err (roundDiv (c * a) 255 * 255) a
      set p := roundDiv (c * a) 255
      have haq : (0 : ℚ) < a := by exact_mod_cast ha0
      push_cast at e1 e2
      have h3 : |(p : ℚ) * 255 / a - c| ≤ 255 / 2 / a := by
        have : (p : ℚ) * 255 / a - c = (p - c * a / 255) * (255 / a) := by field_simp
        rw [this, abs_mul, abs_of_pos (show (0 : ℚ) < 255 / a by positivity)]
        calc _ ≤ 1 / 2 * ((255 : ℚ) / a) := by gcongr
          _ = _ := by ring
      have h4 : (255 : ℚ) / 2 / a ≤ 128 / a := by gcongr; norm_num
      calc |((roundDiv (p * 255) a : ℕ) : ℚ) - c|
          = |(((roundDiv (p * 255) a : ℕ) : ℚ) - p * 255 / a) + (p * 255 / a - c)| := by congr 1; ring
        _ ≤ _ := abs_add_le _ _
        _ ≤ _ := by linarith
    · rintro rfl
      rw [roundDiv_eq (by omega), roundDiv_eq (by omega)]
      omega
  have f1 := key r hr
  have f2 := key g hg
  have f3 := key b hb
  exact ⟨_, _, _, _, _, _, _, rfl, rfl, ⟨f1.1, f2.1, f3.1⟩, fun h => ⟨f1.2 h, f2.2 h, f3.2 h⟩⟩

example : ∃ r2 g2 b2 r1 g1 b1 a1, premultiplyPixel8 [200, 100, 3, 128] = some [r1, g1, b1, a1] ∧
    unpremultiplyPixel8 [r1, g1, b1, 128] = some [r2, g2, b2, 128] ∧ |(r2 : ℚ) - 200| ≤ 128 / 128 + 1 := by
  obtain ⟨r1, g1, b1, a1, r2, g2, b2, h1, h2, h3, _⟩ := C34_round_trip_partial (r := 200) (g := 100) (b := 3) (a := 128)
    (by decide) (by decide) (by decide) (by decide) (by decide)
  exact ⟨r2, g2, b2, r1, g1, b1, a1, h1, h2, by simpa using h3.1⟩

/-- **C34 fails for the pixels the code produces**: because alpha is squared, `(200, 200, 200, 128)`
premultiplies to `(100, 100, 100, 64)` and unpremultiplies to 142 instead of 200 (bound: 2). -/
theorem C34_violated : premultiplyPixel8 [200, 200, 200, 128] = some [100, 100, 100, 64] ∧
    unpremultiplyPixel8 [100, 100, 100, 64] = some [142, 142, 142, 64] := by
  constructor
  · decide
  · simp only [unpremultiplyPixel8, pixelOp]
    norm_num
    rw [unpremulTable_eq _ (by norm_num)]; decide

/-! ### C35 -/

theorem truncSat_err {hi : ℕ} {q v : ℚ} (h : |q - v| ≤ 1 / 64) (hv : 0 ≤ v) (hh : v ≤ hi) :
    |((truncSat hi q : ℕ) : ℚ) - v| ≤ 1 + 1 / 64 ∧ ((truncSat hi q : ℕ) : ℚ) ≤ v + 1 / 64 := by
  unfold truncSat
  rw [abs_le] at h
  have h1 := Int.floor_le q
  have h2 := Int.lt_floor_add_one q
  have hneg : -1 ≤ ⌊q⌋ := by
    rw [Int.le_floor]; push_cast; linarith
  have e : ((⌊q⌋.toNat : ℕ) : ℚ) = max (⌊q⌋ : ℚ) 0 := by
    rcases le_total 0 ⌊q⌋ with h0 | h0
    · rw [max_eq_left (by exact_mod_cast h0)]; exact_mod_cast Int.toNat_of_nonneg h0
    · rw [max_eq_right (by exact_mod_cast h0), Int.toNat_of_nonpos h0]; simp
  have e2 : ((min ⌊q⌋.toNat hi : ℕ) : ℚ) = min (max (⌊q⌋ : ℚ) 0) hi := by
    rw [← e]; exact_mod_cast rfl
  rw [e2]
  constructor
  · rw [abs_le]
    constructor
    · have : v - 1 - 1 / 64 ≤ min (max (⌊q⌋ : ℚ) 0) hi := by
        apply le_min
        · exact le_max_of_le_left (by linarith)
        · linarith
      linarith
    · have : min (max (⌊q⌋ : ℚ) 0) hi ≤ v + 1 / 64 := by
        apply min_le_of_left_le
        apply max_le <;> linarith
      linarith
  · apply min_le_of_left_le
    apply max_le <;> linarith

theorem two_pow_le {d : ℕ} (hd : d ≤ 16) : 2 ^ d ≤ 65536 := by
  calc 2 ^ d ≤ 2 ^ 16 := Nat.pow_le_pow_right (by norm_num) hd
    _ = _ := by norm_num

theorem one_le_max {d : ℕ} (hd : 1 ≤ d) : 1 ≤ 2 ^ d - 1 := by
  have : 2 ^ 1 ≤ 2 ^ d := Nat.pow_le_pow_right (by norm_num) hd
  omega

/-- One premultiplied 16-bit value: within `1 + 1/64` of `c * a / max` for every depth. -/
theorem premulValue16_err {d c a : ℕ} (hd : 1 ≤ d ∧ d ≤ 16) (hc : c ≤ 2 ^ d - 1) (ha : a ≤ 2 ^ d - 1) :
    |((premulValue16 (2 ^ d - 1) (c * a) : ℕ) : ℚ) - (c : ℚ) * a / ((2 ^ d - 1 : ℕ) : ℚ)| ≤ 1 + 1 / 64 := by
  have h16 := two_pow_le hd.2
  have h1 := one_le_max hd.1
  set m := 2 ^ d - 1 with hm
  have hr := fun b => roundDiv_err (c * a) b
  unfold premulValue16
  split_ifs with e1 e2 e3
  · rw [C31_division.2.1 c a (by omega) (by omega)]
    have := hr 1023
    rw [e1]; push_cast at this ⊢; linarith
  · exfalso
    have : 2 ∣ 2 ^ d := dvd_pow_self 2 (by omega)
    omega
  · rw [C31_division.2.2.2 c a (by omega) (by omega)]
    have := hr 65535
    rw [e3]; push_cast at this ⊢; linarith
  · have hmq : (0 : ℚ) < m := by exact_mod_cast h1
    have hca : c * a ≤ m * m := Nat.mul_le_mul hc ha
    have hle : (c : ℚ) * a / m ≤ m := by
      rw [div_le_iff₀ hmq]; exact_mod_cast hca
    have h := float_quot (v := c * a) (m := m) (by omega) (by omega)
      (hca.trans (Nat.mul_le_mul_left _ (by omega)))
    push_cast at h
    have hm32 : (m : ℚ) ≤ ((2 ^ 32 - 1 : ℕ) : ℚ) := by exact_mod_cast (show m ≤ 2 ^ 32 - 1 by omega)
    obtain ⟨k1, k2⟩ := truncSat_err (hi := 2 ^ 32 - 1) h (by positivity) (hle.trans hm32)
    set t := truncSat (2 ^ 32 - 1) (F32.mul (F32.ofNat (c * a)) (F32.div 1 (F32.ofNat m)))
    rcases le_total t m with hl | hl
    · rw [min_eq_left hl]; exact k1
    · rw [min_eq_right hl]
      have : (m : ℚ) ≤ t := by exact_mod_cast hl
      rw [abs_le]; constructor <;> linarith

/-- One unpremultiplied 16-bit value: within `1 + 1/64` of `c * max / a` for premultiplied colours. -/
theorem unpremulValue16_err {d c a : ℕ} (hd : 1 ≤ d ∧ d ≤ 16) (hc : c ≤ a) (ha0 : 0 < a) (ha : a ≤ 2 ^ d - 1) :
    |((unpremulValue16 (2 ^ d - 1) c a : ℕ) : ℚ) - (c : ℚ) * ((2 ^ d - 1 : ℕ) : ℚ) / a| ≤ 1 + 1 / 64 ∧
      ((unpremulValue16 (2 ^ d - 1) c a : ℕ) : ℚ) ≤ (c : ℚ) * ((2 ^ d - 1 : ℕ) : ℚ) / a + 1 / 64 := by
  have h16 := two_pow_le hd.2
  have h1 := one_le_max hd.1
  set m := 2 ^ d - 1 with hm
  have haq : (0 : ℚ) < a := by exact_mod_cast ha0
  have h := float_quot (v := c * m) (m := a) ha0 (by omega) (Nat.mul_le_mul hc (by omega))
  push_cast at h
  have hle : (c : ℚ) * m / a ≤ m := by
    rw [div_le_iff₀ haq, mul_comm (m : ℚ)]
    exact_mod_cast Nat.mul_le_mul_right m hc
  have hm16 : (m : ℚ) ≤ ((65535 : ℕ) : ℚ) := by exact_mod_cast (show m ≤ 65535 by omega)
  exact truncSat_err (hi := 65535) h (by positivity) (hle.trans hm16)

/-- **C35, colours of premultiplication.** For every depth 1..=16 and every RGBA16 image of that depth,
premultiplication succeeds, keeps the padding, and every colour is within `1 + 1/64` of
`c * a / max` (depths 10 and 16: exactly the rounded quotient). Missing: alpha is multiplied too
(`C35_violated`). -/
theorem C35_premultiply_partial {d : ℕ} {src dst : Image ℕ} (hd : 1 ≤ d ∧ d ≤ 16) (hbd : dst.bitDepth = d)
    (hs : src.validate 4 = .ok ()) (hdv : dst.validate 4 = .ok ())
    (hw : src.width = dst.width) (hh : src.height = dst.height) (hp : 0 < dst.width)
    (hb : ∀ v ∈ src.buffer, v ≤ 2 ^ d - 1) :
    ∃ out, alphaU16.premultiply src dst = some out ∧ SameShape out dst ∧ PaddingKept 4 dst out ∧
      ∀ y x c, y < dst.height → x < dst.width → c < 3 → ∃ p,
        sample out.buffer (dst.strideOf 4) 4 y x c = some p ∧
        |(p : ℚ) - ((pxD 0 src.buffer (src.strideOf 4) 4 y x c : ℕ) : ℚ) * alphaAt src.buffer (src.strideOf 4) y x /
          ((2 ^ d - 1 : ℕ) : ℚ)| ≤ 1 + 1 / 64 ∧
        (d = 10 ∨ d = 16 → p = roundDiv (pxD 0 src.buffer (src.strideOf 4) 4 y x c *
          alphaAt src.buffer (src.strideOf 4) y x) (2 ^ d - 1)) := by
  subst hbd
  obtain ⟨out, o1, o2, o3, o4⟩ := premultiplyImage_spec (fun c a => premulValue16 (2 ^ dst.bitDepth - 1) (c * a))
    (fun a => premulValue16 (2 ^ dst.bitDepth - 1) (a * a)) 0 hs hdv hw hh hp
  have hle : ∀ y x c, pxD 0 src.buffer (src.strideOf 4) 4 y x c ≤ 2 ^ dst.bitDepth - 1 := by
    intro y x c
    simp only [pxD, sample]
    exact getD_le_of_forall hb _
  refine ⟨out, o1, o2, o3, fun y x c hy hx hc => ⟨_, o4 y x c hy hx (by omega), ?_, ?_⟩⟩
  · simp only [pixelVal, if_pos hc]
    exact premulValue16_err hd (hle _ _ _) (hle _ _ _)
  · have g1 := hle y x c
    have g2 := hle y x 3
    simp only [pixelVal, if_pos hc, alphaAt]
    generalize pxD 0 src.buffer (src.strideOf 4) 4 y x c = p at g1 ⊢
    generalize pxD 0 src.buffer (src.strideOf 4) 4 y x 3 = a at g2 ⊢
    rintro (h | h)
    · rw [h] at g1 g2 ⊢
      norm_num at g1 g2 ⊢
      rw [premulValue16, if_pos rfl]
      exact C31_division.2.1 _ _ g1 g2
    · rw [h] at g1 g2 ⊢
      norm_num at g1 g2 ⊢
      rw [premulValue16, if_neg (by decide), if_neg (by decide), if_pos rfl]
      exact C31_division.2.2.2 _ _ g1 g2

/-- **C35, unpremultiplication.** For every depth, colours not above alpha come out within `1 + 1/64` of
`c * max / a` (pixels with alpha 0 are left alone, padding is kept); but every non-zero alpha becomes
`max` or `max - 1`: all partial transparency is lost. Missing: alpha unchanged. -/
theorem C35_unpremultiply_partial {d : ℕ} {img : Image ℕ} (hd : 1 ≤ d ∧ d ≤ 16) (hbd : img.bitDepth = d)
    (hv : img.validate 4 = .ok ()) (hp : 0 < img.width) (hb : ∀ v ∈ img.buffer, v ≤ 2 ^ d - 1) :
    ∃ out, alphaU16.unpremultiply img = some out ∧ SameShape out img ∧ PaddingKept 4 img out ∧
      ∀ y x, y < img.height → x < img.width →
        (alphaAt img.buffer (img.strideOf 4) y x = 0 → ∀ c, c < 4 →
          sample out.buffer (img.strideOf 4) 4 y x c = some (pxD 0 img.buffer (img.strideOf 4) 4 y x c)) ∧
        (alphaAt img.buffer (img.strideOf 4) y x ≠ 0 →
          (∀ c, c < 3 → pxD 0 img.buffer (img.strideOf 4) 4 y x c ≤ alphaAt img.buffer (img.strideOf 4) y x →
            ∃ p, sample out.buffer (img.strideOf 4) 4 y x c = some p ∧
              |(p : ℚ) - ((pxD 0 img.buffer (img.strideOf 4) 4 y x c : ℕ) : ℚ) * ((2 ^ d - 1 : ℕ) : ℚ) /
                alphaAt img.buffer (img.strideOf 4) y x| ≤ 1 + 1 / 64) ∧
          (sample out.buffer (img.strideOf 4) 4 y x 3 = some (2 ^ d - 1) ∨
            sample out.buffer (img.strideOf 4) 4 y x 3 = some (2 ^ d - 1 - 1))) := by
  subst hbd
  obtain ⟨out, o1, o2, o3, o4⟩ := unpremultiplyImage_spec
    (fun c a => if a ≠ 0 then unpremulValue16 (2 ^ img.bitDepth - 1) c a else c)
    (fun a => if a ≠ 0 then unpremulValue16 (2 ^ img.bitDepth - 1) a a else a) 0 hv hp
  have hle : ∀ y x c, pxD 0 img.buffer (img.strideOf 4) 4 y x c ≤ 2 ^ img.bitDepth - 1 := by
    intro y x c
    simp only [pxD, sample]
    exact getD_le_of_forall hb _
  refine ⟨out, o1, o2, o3, fun y x hy hx => ⟨fun h0 c hc => ?_, fun h0 => ⟨fun c hc hca => ?_, ?_⟩⟩⟩
  · have h0' : pxD 0 img.buffer (img.strideOf 4) 4 y x 3 = 0 := h0
    rw [o4 y x c hy hx hc]
    simp only [pixelVal, h0', ne_eq, not_true_eq_false, if_false]
    split_ifs with h3
    · rfl
    · have : c = 3 := by omega
      subst this; rw [h0']
  · refine ⟨_, o4 y x c hy hx (by omega), ?_⟩
    have h0' : pxD 0 img.buffer (img.strideOf 4) 4 y x 3 ≠ 0 := h0
    simp only [pixelVal, if_pos hc, if_pos h0']
    exact (unpremulValue16_err hd hca (Nat.pos_of_ne_zero h0) (hle _ _ _)).1
  · have h0' : pxD 0 img.buffer (img.strideOf 4) 4 y x 3 ≠ 0 := h0
    rw [o4 y x 3 hy hx (by omega)]
    simp only [pixelVal, if_neg (show ¬ 3 < 3 by omega), if_pos h0']
    obtain ⟨k1, k2⟩ := unpremulValue16_err hd (le_refl _) (Nat.pos_of_ne_zero h0') (hle y x 3)
    set a := pxD 0 img.buffer (img.strideOf 4) 4 y x 3
    set m := 2 ^ img.bitDepth - 1
    have hne : (a : ℚ) ≠ 0 := by exact_mod_cast h0'
    rw [mul_div_assoc, mul_div_cancel₀ _ hne] at k1 k2
    set u := unpremulValue16 m a a
    rw [abs_le] at k1
    have q1 : u < m + 1 := by
      have : (u : ℚ) < ((m + 1 : ℕ) : ℚ) := by push_cast; linarith
      exact_mod_cast this
    have q2 : m < u + 2 := by
      have : (m : ℚ) < ((u + 2 : ℕ) : ℚ) := by push_cast; linarith
      exact_mod_cast this
    have hm1 := one_le_max hd.1
    rcases (show u = m ∨ u = m - 1 by omega) with h | h
    · left; rw [h]
    · right; rw [h]

/-- A 2×1 RGBA image of depth 12. -/
def Demo.asrc16 : Image ℕ :=
  { buffer := [1000, 500, 0, 2048, 10, 20, 30, 4095, 7], channels := 4, width := 2, height := 1, stride := 9, bitDepth := 12 }
def Demo.adst16 : Image ℕ :=
  { buffer := List.replicate 10 3, channels := 4, width := 2, height := 1, stride := 10, bitDepth := 12 }

example : (∃ out, alphaU16.premultiply Demo.asrc16 Demo.adst16 = some out ∧ PaddingKept 4 Demo.adst16 out) ∧
    ∃ out, alphaU16.unpremultiply Demo.asrc16 = some out ∧ PaddingKept 4 Demo.asrc16 out := by
  obtain ⟨out, h, _, h', _⟩ := C35_premultiply_partial (d := 12) (src := Demo.asrc16) (dst := Demo.adst16)
    (by decide) rfl (by decide) (by decide) rfl rfl (by decide) (by decide)
  obtain ⟨out2, g, _, g', _⟩ := C35_unpremultiply_partial (d := 12) (img := Demo.asrc16) (by decide) rfl (by decide)
    (by decide) (by decide)
  exact ⟨⟨out, h, h'⟩, out2, g, g'⟩

/-- **C35 fails**: 12-bit alpha 2048 becomes 1024 by premultiplication and 4095 by unpremultiplication. -/
theorem C35_violated :
    (∃ out, alphaU16.premultiply Demo.asrc16 Demo.adst16 = some out ∧
      sample Demo.asrc16.buffer 9 4 0 0 3 = some 2048 ∧ sample out.buffer 10 4 0 0 3 = some 1024) ∧
    (∃ out, alphaU16.unpremultiply Demo.asrc16 = some out ∧ sample out.buffer 9 4 0 0 3 = some 4095) := by
  refine ⟨⟨_, rfl, by decide, by decide +kernel⟩, ⟨_, rfl, by decide +kernel⟩⟩

/-! ### C36 -/

/-- **C36.** For every RGBA f32 image (`ρ` is the rounding of the float operations): premultiplication
multiplies each colour by alpha, unpremultiplication multiplies it by the reciprocal of alpha (0 if alpha
is 0), both keep alpha and the padding. -/
theorem C36_float (ρ : ℚ → ℚ) (bits : ℚ → ℕ) :
    (∀ {src dst : Image ℚ}, src.validate 4 = .ok () → dst.validate 4 = .ok () → src.width = dst.width →
      src.height = dst.height → 0 < dst.width →
      ∃ out, (alphaF32 ρ bits).premultiply src dst = some out ∧ SameShape out dst ∧ PaddingKept 4 dst out ∧
        ∀ y x, y < dst.height → x < dst.width →
          (∀ c, c < 3 → sample out.buffer (dst.strideOf 4) 4 y x c =
            some (ρ (pxD 0 src.buffer (src.strideOf 4) 4 y x c * pxD 0 src.buffer (src.strideOf 4) 4 y x 3))) ∧
          sample out.buffer (dst.strideOf 4) 4 y x 3 = some (pxD 0 src.buffer (src.strideOf 4) 4 y x 3)) ∧
    (∀ {img : Image ℚ}, img.validate 4 = .ok () → 0 < img.width →
      ∃ out, (alphaF32 ρ bits).unpremultiply img = some out ∧ SameShape out img ∧ PaddingKept 4 img out ∧
        ∀ y x, y < img.height → x < img.width →
          (∀ c, c < 3 → sample out.buffer (img.strideOf 4) 4 y x c =
            some (if pxD 0 img.buffer (img.strideOf 4) 4 y x 3 = 0 then 0 else
              ρ (pxD 0 img.buffer (img.strideOf 4) 4 y x c * ρ (1 / pxD 0 img.buffer (img.strideOf 4) 4 y x 3)))) ∧
          sample out.buffer (img.strideOf 4) 4 y x 3 = some (pxD 0 img.buffer (img.strideOf 4) 4 y x 3)) := by
  constructor
  · intro src dst hs hd hw hh hp
    obtain ⟨out, o1, o2, o3, o4⟩ := premultiplyImage_spec (fun c a => ρ (c * a)) (fun a => a) 0 hs hd hw hh hp
    refine ⟨out, o1, o2, o3, fun y x hy hx => ⟨fun c hc => ?_, ?_⟩⟩
    · rw [o4 y x c hy hx (by omega), pixelVal, if_pos hc]
    · rw [o4 y x 3 hy hx (by omega), pixelVal, if_neg (by omega)]
  · intro img hd hp
    obtain ⟨out, o1, o2, o3, o4⟩ := unpremultiplyImage_spec
      (fun c a => if a ≠ 0 then ρ (c * ρ (1 / a)) else 0) (fun a => a) 0 hd hp
    rw [← unpremultiplyPixelF_eq] at o1
    refine ⟨out, o1, o2, o3, fun y x hy hx => ⟨fun c hc => ?_, ?_⟩⟩
    · rw [o4 y x c hy hx (by omega), pixelVal, if_pos hc]
      simp only [ne_eq, ite_not]
    · rw [o4 y x 3 hy hx (by omega), pixelVal, if_neg (by omega)]

/-- **C36, inverse.** In exact arithmetic the two pixel operations are inverse on every pixel with non-zero
alpha. -/
theorem C36_inverse (r g b a : ℚ) (ha : a ≠ 0) :
    (premultiplyPixelF id [r, g, b, a]).bind (unpremultiplyPixelF id) = some [r, g, b, a] ∧
    (unpremultiplyPixelF id [r, g, b, a]).bind (premultiplyPixelF id) = some [r, g, b, a] := by
  constructor
  · simp only [premultiplyPixelF, unpremultiplyPixelF, pixelOp, Option.bind_some, id, if_pos ha, fdiv_eq ha]
    field_simp
  · simp only [premultiplyPixelF, unpremultiplyPixelF, pixelOp, Option.bind_some, id, if_pos ha, fdiv_eq ha]
    field_simp

example : (premultiplyPixelF id [1/2, 3, -1, 1/3]).bind (unpremultiplyPixelF id) = some [1/2, 3, -1, 1/3] :=
  (C36_inverse _ _ _ _ (by norm_num)).1

def Demo.fimg : Image ℚ :=
  { buffer := [1/2, 1/4, 0, 1/2, 1, 1, 1, 0, 9], channels := 4, width := 2, height := 1, stride := 9, bitDepth := 0 }

example : ∃ out, (alphaF32 F32.rnd (fun _ => 0)).unpremultiply Demo.fimg = some out ∧ PaddingKept 4 Demo.fimg out := by
  obtain ⟨out, h, _, h', _⟩ := (C36_float F32.rnd (fun _ => 0)).2 (img := Demo.fimg) (by decide) (by decide)
  exact ⟨out, h, h'⟩

/-! ### C37 -/

theorem hasNonConstantAlpha_iff {J k w h stride : ℕ} {store : List ℕ} (hl : store.length = stride * h)
    (hw : w * 4 ≤ stride) (hw0 : 0 < w) (hh0 : 0 < h) (hb : ∀ v ∈ store, v < 2 ^ k) (hJ : w * 2 ^ k < J) :
    hasNonConstantAlpha J store w stride = true ↔
      ∃ y x y' x', y < h ∧ x < w ∧ y' < h ∧ x' < w ∧
        alphaAt store stride y x ≠ alphaAt store stride y' x' := by
  have hs0 : 0 < stride := by omega
  have hne : store ≠ [] := by
    intro h; rw [h] at hl; simp at hl; rcases hl with h | h <;> omega
  have hrows : store.length / stride = h := by rw [hl, Nat.mul_div_cancel_left _ hs0]
  unfold hasNonConstantAlpha
  rw [if_neg hne]
  have hlt : ∀ i, store.getD i 0 < 2 ^ k := by
    intro i
    rw [List.getD_eq_getElem?_getD]
    rcases Nat.lt_or_ge i store.length with hi | hi
    · rw [List.getElem?_eq_getElem hi]; exact hb _ (List.getElem_mem hi)
    · rw [List.getElem?_eq_none hi]; simp
  have hrow : ∀ row, row ∈ chunksExact stride store ↔ ∃ y, y < h ∧ row = (store.drop (y * stride)).take stride := by
    intro row
    unfold chunksExact
    rw [List.mem_map, hrows]
    constructor
    · rintro ⟨y, hy, rfl⟩; exact ⟨y, List.mem_range.1 hy, rfl⟩
    · rintro ⟨y, hy, rfl⟩; exact ⟨y, List.mem_range.2 hy, rfl⟩
  have hval : ∀ y x, x < w → ((store.drop (y * stride)).take stride).getD (x * 4 + 3) 0 = alphaAt store stride y x := by
    intro y x hx
    rw [List.getD_eq_getElem?_getD, chunk_get (by omega)]
    simp only [alphaAt, pxD, sample, Nat.add_assoc]
  have hfirst : store.getD 3 0 = alphaAt store stride 0 0 := by
    rw [List.getD_eq_getElem?_getD]; simp [alphaAt, pxD, sample]
  rw [alphaRowsDiffer_iff J (store.getD 3 0) w (2 ^ k) hJ]
  · constructor
    · rintro ⟨row, hr, x, hx, hd⟩
      obtain ⟨y, hy, rfl⟩ := (hrow row).1 hr
      rw [hval y x hx, hfirst] at hd
      exact ⟨y, x, 0, 0, hy, hx, hh0, hw0, hd⟩
    · rintro ⟨y, x, y', x', hy, hx, hy', hx', hd⟩
      by_cases h1 : alphaAt store stride y x = alphaAt store stride 0 0
      · refine ⟨_, (hrow _).2 ⟨y', hy', rfl⟩, x', hx', ?_⟩
        rw [hval y' x' hx', hfirst, ← h1]; exact hd.symm
      · refine ⟨_, (hrow _).2 ⟨y, hy, rfl⟩, x, hx, ?_⟩
        rw [hval y x hx, hfirst]; exact h1
  · intro row hr v hv
    obtain ⟨y, hy, rfl⟩ := (hrow row).1 hr
    have hv' : v < 2 ^ k := hb v (List.mem_of_mem_drop (List.mem_of_mem_take hv))
    exact (Nat.xor_lt_two_pow hv' (hlt 3)).le
  · intro row hr
    obtain ⟨y, hy, rfl⟩ := (hrow row).1 hr
    rw [chunk_len hl hy]; exact hw

/-- **C37.** The alpha check says that premultiplication is needed iff two pixels of the image differ in
alpha: RGBA8 images up to 2^24 - 1 pixels wide, RGBA16 images up to 2^47 pixels wide; padding does not
matter. -/
theorem C37_alpha_check {img : Image ℕ} (hv : img.validate 4 = .ok ()) (hw : 0 < img.width) (hh : 0 < img.height) :
    ((∀ v ∈ img.buffer, v ≤ 255) → img.width < 2 ^ 24 → (alphaU8.isNeeded img = true ↔ AlphaVaries img)) ∧
    ((∀ v ∈ img.buffer, v ≤ 65535) → img.width < 2 ^ 47 → (alphaU16.isNeeded img = true ↔ AlphaVaries img)) := by
  obtain ⟨hl, hs⟩ := validate_facts hv
  constructor
  · intro hb hw'
    exact hasNonConstantAlpha_iff (k := 8) hl hs hw hh (fun v hv => by have := hb v hv; omega) (by omega)
  · intro hb hw'
    exact hasNonConstantAlpha_iff (k := 16) hl hs hw hh (fun v hv => by have := hb v hv; omega) (by omega)

/-- **C37 for f32**: `bits` (`f32::to_bits`, 32 bits, injective on the samples of the image). -/
theorem C37_alpha_check_f32 {img : Image ℚ} {ρ : ℚ → ℚ} {bits : ℚ → ℕ} (hv : img.validate 4 = .ok ())
    (hw : 0 < img.width) (hh : 0 < img.height) (hw' : img.width < 2 ^ 31) (hb : ∀ v ∈ img.buffer, bits v < 2 ^ 32)
    (hinj : ∀ u ∈ img.buffer, ∀ v ∈ img.buffer, bits u = bits v → u = v) :
    (alphaF32 ρ bits).isNeeded img = true ↔
      ∃ y x y' x', y < img.height ∧ x < img.width ∧ y' < img.height ∧ x' < img.width ∧
        pxD 0 img.buffer (img.strideOf 4) 4 y x 3 ≠ pxD 0 img.buffer (img.strideOf 4) 4 y' x' 3 := by
  obtain ⟨hl, hs⟩ := validate_facts hv
  have := hasNonConstantAlpha_iff (J := 2 ^ 64) (k := 32) (store := img.buffer.map bits) (h := img.height)
    (by rw [List.length_map]; exact hl) hs hw hh (by
      intro v hv; obtain ⟨u, hu, rfl⟩ := List.mem_map.1 hv; exact hb u hu) (by omega)
  refine (Iff.trans (show _ ↔ _ from Iff.rfl) this).trans ?_
  have hidx : ∀ y x, y < img.height → x < img.width → ∃ hi : y * img.strideOf 4 + x * 4 + 3 < img.buffer.length,
      pxD 0 img.buffer (img.strideOf 4) 4 y x 3 = img.buffer[y * img.strideOf 4 + x * 4 + 3] ∧
      alphaAt (img.buffer.map bits) (img.strideOf 4) y x = bits img.buffer[y * img.strideOf 4 + x * 4 + 3] := by
    intro y x hy hx
    have hi : y * img.strideOf 4 + x * 4 + 3 < img.buffer.length := by
      rw [hl]
      calc y * img.strideOf 4 + x * 4 + 3 < y * img.strideOf 4 + img.strideOf 4 := by omega
        _ = (y + 1) * img.strideOf 4 := by ring
        _ ≤ img.height * img.strideOf 4 := Nat.mul_le_mul_right _ hy
        _ = _ := Nat.mul_comm _ _
    refine ⟨hi, ?_, ?_⟩
    · simp only [pxD, sample, List.getElem?_eq_getElem hi, Option.getD_some]
    · simp only [alphaAt, pxD, sample, List.getElem?_map, List.getElem?_eq_getElem hi, Option.map_some, Option.getD_some]
  have hiff : ∀ y x y' x', y < img.height → x < img.width → y' < img.height → x' < img.width →
      (alphaAt (img.buffer.map bits) (img.strideOf 4) y x ≠ alphaAt (img.buffer.map bits) (img.strideOf 4) y' x' ↔
        pxD 0 img.buffer (img.strideOf 4) 4 y x 3 ≠ pxD 0 img.buffer (img.strideOf 4) 4 y' x' 3) := by
    intro y x y' x' hy hx hy' hx'
    obtain ⟨i1, e1, f1⟩ := hidx y x hy hx
    obtain ⟨i2, e2, f2⟩ := hidx y' x' hy' hx'
    rw [e1, e2, f1, f2, not_iff_not]
    exact ⟨hinj _ (List.getElem_mem i1) _ (List.getElem_mem i2), fun h => by rw [h]⟩
  constructor
  · rintro ⟨y, x, y', x', a, b, c, d, h⟩
    exact ⟨y, x, y', x', a, b, c, d, (hiff y x y' x' a b c d).1 h⟩
  · rintro ⟨y, x, y', x', a, b, c, d, h⟩
    exact ⟨y, x, y', x', a, b, c, d, (hiff y x y' x' a b c d).2 h⟩

example : AlphaVaries Demo.asrc := by
  rw [← (C37_alpha_check (img := Demo.asrc) (by decide) (by decide) (by decide)).1 (by decide) (by decide)]
  decide

end PicScale
