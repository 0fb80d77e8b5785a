import Verif.Model.NeonAlphaU16
import Verif.Lemmas.NeonAlpha
import Verif.Lemmas.F16Enc
import Verif.Props.AlphaX86U16

/-!
Values of the NEON RGBA16 alpha blocks.
-/

namespace PicScale

open Spec F32

/-! ### one lane -/

/-- What premultiplication computes from a colour and an alpha. -/
def premulN16 (fp16 : Bool) (d c a : ℕ) : ℕ :=
  if fp16 = true ∧ (d = 10 ∨ d = 12) then vcvta16 (rnd16 (rnd16 (c : ℚ) * rnd16 (rnd16 (a : ℚ) * recipBitDepth d)))
  else if d = 10 ∨ d = 12 ∨ d = 16 then neonDivBy (divExponent d) (c * a)
  else scaleLaneN c (F32.mul (a : ℚ) (F32.rnd (rnd64 (1 / ((2 ^ d - 1 : ℕ) : ℚ)))))

/-- What unpremultiplication computes from a colour and an alpha. -/
def unpremulN16 (fp16 : Bool) (d c a : ℕ) : ℕ :=
  if a = 0 then c
  else if (d = 10 ∨ d = 12) ∧ fp16 = true then
    vcvta16 (rnd16 (rnd16 (rnd16 (c : ℚ) * rnd16 (1 / rnd16 (a : ℚ))) * rnd16 ((2 ^ d - 1 : ℕ) : ℚ)))
  else scaleLaneN c (F32.mul (F32.div 1 (a : ℚ)) ((2 ^ d - 1 : ℕ) : ℚ))

theorem premulIntN_lane (k : ℕ) : LaneBy 8 (premulIntN k) fun c a => neonDivBy k (c * a) := fun _ _ => rfl
theorem premulHalfN_lane (r : ℚ) : LaneBy 8 (premulHalfN r) fun c a =>
    vcvta16 (rnd16 (rnd16 (c : ℚ) * rnd16 (rnd16 (a : ℚ) * r))) := fun _ _ => rfl
theorem premulAnyN_lane (s : ℚ) : LaneBy 8 (premulAnyN s) fun c a => scaleLaneN c (F32.mul (a : ℚ) s) := fun _ _ => rfl
theorem unpremulVec16N_lane (M : ℕ) : LaneBy 8 (unpremulVec16N M) fun c a =>
    if a = 0 then c else scaleLaneN c (F32.mul (F32.div 1 (a : ℚ)) (M : ℚ)) := fun _ _ => rfl
theorem unpremulHalfN_lane (M : ℕ) : LaneBy 8 (unpremulHalfN M) fun c a =>
    if a = 0 then c else vcvta16 (rnd16 (rnd16 (rnd16 (c : ℚ) * rnd16 (1 / rnd16 (a : ℚ))) * rnd16 (M : ℚ))) := fun _ _ => rfl

theorem premulRowNeon16_ok (fp16 : Bool) (d : ℕ) : RowOK (premulRowNeon16 fp16 d) (premulN16 fp16 d) (fun a => a) 0 := by
  unfold premulRowNeon16
  apply alphaChunks_ok (by norm_num) (by norm_num)
  apply PixelwiseS.pixelwise (m := 8)
  apply planes_pixelwise
  unfold premulN16
  split_ifs with h1 h2
  · exact premulHalfN_lane _
  · exact premulIntN_lane _
  · exact premulAnyN_lane _

theorem unpremulRowNeon16_ok (fp16 : Bool) (d : ℕ) :
    RowInPlaceOK (unpremulRowNeon16 fp16 d) (unpremulN16 fp16 d) (fun a => a) 0 := by
  unfold unpremulRowNeon16
  apply alphaChunksInPlace_ok (by norm_num) (by norm_num)
  apply PixelwiseS.pixelwise (m := 8)
  apply planes_pixelwise
  unfold unpremulN16
  split_ifs with h1
  · exact unpremulHalfN_lane _
  · exact unpremulVec16N_lane _

/-! ### integer division -/

theorem neonDivBy_eq {k c a : ℕ} (hk : k = 10 ∨ k = 12 ∨ k = 16) (hc : c ≤ 2 ^ k - 1) (ha : a ≤ 2 ^ k - 1) :
    neonDivBy k (c * a) = roundDiv (c * a) (2 ^ k - 1) := by
  have h : c * a ≤ (2 ^ k - 1) * (2 ^ k - 1) := Nat.mul_le_mul hc ha
  unfold neonDivBy vqrshrn32 vrsra32
  simp only [Nat.shiftRight_eq_div_pow]
  generalize c * a = v at *
  rcases hk with rfl | rfl | rfl
  · norm_num at h ⊢
    have key : (v + (v + 512) / 1024 + 512) / 1024 = (2 * v + 1023) / 2046 := by omega
    rw [roundDiv_eq (by omega), Nat.mod_eq_of_lt (by omega), key]
    omega
  · norm_num at h ⊢
    have key : (v + (v + 2048) / 4096 + 2048) / 4096 = (2 * v + 4095) / 8190 := by omega
    rw [roundDiv_eq (by omega), Nat.mod_eq_of_lt (by omega), key]
    omega
  · norm_num at h ⊢
    have key : (v + (v + 32768) / 65536 + 32768) / 65536 = (2 * v + 65535) / 131070 := by omega
    rw [roundDiv_eq (by omega), Nat.mod_eq_of_lt (by omega), key]
    omega

/-! ### conversions -/

theorem vcvta1_err {q : ℚ} (h0 : 0 ≤ q) (h1 : q ≤ 4000000000) : |(vcvta1 q : ℚ) - q| ≤ 1 / 2 := by
  unfold vcvta1
  have hf := Int.floor_le (q + 1 / 2)
  have hf' := Int.lt_floor_add_one (q + 1 / 2)
  have hn : 0 ≤ ⌊q + 1 / 2⌋ := Int.floor_nonneg.2 (by linarith)
  have hlt : ⌊q + 1 / 2⌋ ≤ 4000000000 := by
    have : ((⌊q + 1 / 2⌋ : ℤ) : ℚ) < 4000000001 := by linarith
    have : ⌊q + 1 / 2⌋ < 4000000001 := by exact_mod_cast this
    omega
  rw [min_eq_left (by omega)]
  have e : ((⌊q + 1 / 2⌋.toNat : ℕ) : ℚ) = ((⌊q + 1 / 2⌋ : ℤ) : ℚ) := by
    have : ((⌊q + 1 / 2⌋.toNat : ℕ) : ℤ) = ⌊q + 1 / 2⌋ := Int.toNat_of_nonneg hn
    exact_mod_cast this
  rw [e, abs_le]
  constructor <;> linarith

theorem vcvta16_err {q : ℚ} (h0 : 0 ≤ q) (h1 : q ≤ 65535) : |(vcvta16 q : ℚ) - q| ≤ 1 / 2 := by
  unfold vcvta16
  have hf := Int.floor_le (q + 1 / 2)
  have hf' := Int.lt_floor_add_one (q + 1 / 2)
  have hn : 0 ≤ ⌊q + 1 / 2⌋ := Int.floor_nonneg.2 (by linarith)
  have hlt : ⌊q + 1 / 2⌋ ≤ 65535 := by
    have : ((⌊q + 1 / 2⌋ : ℤ) : ℚ) < 65536 := by linarith
    have : ⌊q + 1 / 2⌋ < 65536 := by exact_mod_cast this
    omega
  rw [min_eq_left (by omega)]
  have e : ((⌊q + 1 / 2⌋.toNat : ℕ) : ℚ) = ((⌊q + 1 / 2⌋ : ℤ) : ℚ) := by
    have : ((⌊q + 1 / 2⌋.toNat : ℕ) : ℤ) = ⌊q + 1 / 2⌋ := Int.toNat_of_nonneg hn
    exact_mod_cast this
  rw [e, abs_le]
  constructor <;> linarith

theorem vcvta16_mono {p q : ℚ} (h : p ≤ q) : vcvta16 p ≤ vcvta16 q := by
  unfold vcvta16
  have : ⌊p + 1 / 2⌋ ≤ ⌊q + 1 / 2⌋ := Int.floor_le_floor (by linarith)
  omega

/-- A lane near `e`, away from the wrap. -/
theorem scaleLaneN_err {x : ℕ} {s e t : ℚ} (hs : 0 ≤ F32.mul (x : ℚ) s) (h : |F32.mul (x : ℚ) s - e| ≤ t)
    (het : e + t < 65535 + 1 / 2) : |(scaleLaneN x s : ℚ) - e| ≤ 1 / 2 + t := by
  rw [abs_le] at h
  have h1 := vcvta1_err hs (by linarith)
  rw [abs_le] at h1
  have hlt : (vcvta1 (F32.mul (x : ℚ) s) : ℚ) < 65536 := by linarith
  have hlt : vcvta1 (F32.mul (x : ℚ) s) < 65536 := by exact_mod_cast hlt
  unfold scaleLaneN
  rw [Nat.mod_eq_of_lt hlt, abs_le]
  constructor <;> linarith

/-! ### halves -/

theorem rnd16_err {q : ℚ} (h : |q| < 65520) : |rnd16 q - q| ≤ |q| / 2 ^ 11 + 1 / 2 ^ 25 := (F16.enc_near h).2.2

theorem rnd16_mono {p q : ℚ} (hp : |p| < 65520) (hq : |q| < 65520) (h : p ≤ q) : rnd16 p ≤ rnd16 q := by
  by_contra hc
  push Not at hc
  have a := F16.enc_nearest hp (F16.enc_near hq).2.1
  have b := F16.enc_nearest hq (F16.enc_near hp).2.1
  unfold rnd16 at hc
  set x := F16.dec (F16.enc p) with hx
  set y := F16.dec (F16.enc q) with hy
  have h1 : x + y ≤ 2 * p := by
    rcases abs_cases (x - p) with ⟨u, _⟩ | ⟨u, _⟩ <;> rcases abs_cases (y - p) with ⟨v, _⟩ | ⟨v, _⟩ <;> linarith
  have h2 : 2 * q ≤ x + y := by
    rcases abs_cases (x - q) with ⟨u, _⟩ | ⟨u, _⟩ <;> rcases abs_cases (y - q) with ⟨v, _⟩ | ⟨v, _⟩ <;> linarith
  have : p = q := le_antisymm h (by linarith)
  rw [hx, hy, this] at hc
  exact lt_irrefl _ hc

theorem rnd16_nonneg {q : ℚ} (h0 : 0 ≤ q) (h : q < 65520) : 0 ≤ rnd16 q := by
  have : rnd16 0 = 0 := by decide +kernel
  rw [← this]
  exact rnd16_mono (by norm_num) (by rwa [abs_of_nonneg h0]) h0

/-- `x` is `y ≥ 0` to within the relative error `δ`. -/
def Rel (δ x y : ℚ) : Prop := 0 ≤ y ∧ |x - y| ≤ δ * y

theorem Rel.lo {δ x y : ℚ} (h : Rel δ x y) : (1 - δ) * y ≤ x := by
  have := (abs_le.1 h.2).1; linarith

theorem Rel.hi {δ x y : ℚ} (h : Rel δ x y) : x ≤ (1 + δ) * y := by
  have := (abs_le.1 h.2).2; linarith

theorem Rel.nonneg {δ x y : ℚ} (h : Rel δ x y) (hδ : δ ≤ 1) : 0 ≤ x :=
  le_trans (mul_nonneg (by linarith) h.1) h.lo

theorem Rel.mono {δ δ' x y : ℚ} (h : Rel δ x y) (hd : δ ≤ δ') : Rel δ' x y :=
  ⟨h.1, le_trans h.2 (mul_le_mul_of_nonneg_right hd h.1)⟩

theorem Rel.exact {y : ℚ} (h : 0 ≤ y) : Rel 0 y y := ⟨h, by simp⟩

theorem Rel.mul {δ ε x y z w : ℚ} (h : Rel δ x y) (g : Rel ε z w) (hδ : 0 ≤ δ) (hε : 0 ≤ ε) :
    Rel (δ + ε + δ * ε) (x * z) (y * w) := by
  obtain ⟨hy, h⟩ := h
  obtain ⟨hw, g⟩ := g
  refine ⟨mul_nonneg hy hw, ?_⟩
  have e : x * z - y * w = (x - y) * (z - w) + (x - y) * w + y * (z - w) := by ring
  rw [e]
  calc |(x - y) * (z - w) + (x - y) * w + y * (z - w)|
      ≤ |(x - y) * (z - w)| + |(x - y) * w| + |y * (z - w)| := by
        refine le_trans (abs_add_le _ _) ?_
        gcongr
        exact abs_add_le _ _
    _ = |x - y| * |z - w| + |x - y| * w + y * |z - w| := by
        rw [abs_mul, abs_mul, abs_mul, abs_of_nonneg hw, abs_of_nonneg hy]
    _ ≤ (δ * y) * (ε * w) + (δ * y) * w + y * (ε * w) := by
        have : 0 ≤ δ * y := mul_nonneg hδ hy
        gcongr
    _ = _ := by ring

theorem Rel.trans {δ ε x y z : ℚ} (h : Rel δ x y) (g : Rel ε y z) (hδ : 0 ≤ δ) : Rel (δ + ε + δ * ε) x z := by
  obtain ⟨hy, h⟩ := h
  refine ⟨g.1, ?_⟩
  have hy' := g.hi
  calc |x - z| = |(x - y) + (y - z)| := by congr 1; ring
    _ ≤ |x - y| + |y - z| := abs_add_le _ _
    _ ≤ δ * y + ε * z := by gcongr; exact g.2
    _ ≤ δ * ((1 + ε) * z) + ε * z := by gcongr
    _ = _ := by ring

theorem Rel.inv {δ x y : ℚ} (h : Rel δ x y) (hy : 0 < y) (h0 : 0 ≤ δ) (hδ : δ ≤ 1 / 2) : Rel (δ + 2 * δ * δ) (1 / x) (1 / y) := by
  have hx : 0 < x := lt_of_lt_of_le (mul_pos (by linarith) hy) h.lo
  refine ⟨by positivity, ?_⟩
  have e : 1 / x - 1 / y = (y - x) / (x * y) := by field_simp
  rw [e, abs_div, abs_of_pos (mul_pos hx hy), abs_sub_comm, div_le_iff₀ (mul_pos hx hy)]
  have hl := h.lo
  have : (δ + 2 * δ * δ) * (1 / y) * (x * y) = (δ + 2 * δ * δ) * x := by field_simp
  rw [this]
  have h1 : δ * y ≤ (δ + 2 * δ * δ) * ((1 - δ) * y) := by
    have : (δ + 2 * δ * δ) * ((1 - δ) * y) - δ * y = δ * δ * (1 - 2 * δ) * y := by ring
    have h2 : 0 ≤ δ * δ * (1 - 2 * δ) * y := mul_nonneg (mul_nonneg (mul_nonneg h0 h0) (by linarith)) hy.le
    linarith
  calc |x - y| ≤ δ * y := h.2
    _ ≤ _ := h1
    _ ≤ _ := by
      have : 0 ≤ δ + 2 * δ * δ := by positivity
      gcongr

theorem rnd16_zero : rnd16 0 = 0 := by decide +kernel

/-- Rounding to half, of zero or a number not below `l`. -/
theorem rnd16_rel {q l : ℚ} (hl : 0 < l) (hq : q = 0 ∨ l ≤ q) (h : q < 65520) : Rel (1 / 2 ^ 11 + 1 / 2 ^ 25 / l) (rnd16 q) q := by
  rcases hq with rfl | hq
  · rw [rnd16_zero]; exact ⟨le_rfl, by simp⟩
  · have h0 : 0 ≤ q := by linarith
    refine ⟨h0, ?_⟩
    have := rnd16_err (q := q) (by rwa [abs_of_nonneg h0])
    rw [abs_of_nonneg h0] at this
    refine this.trans ?_
    have e : (1 / 2 ^ 11 + 1 / 2 ^ 25 / l) * q = q / 2 ^ 11 + 1 / 2 ^ 25 * (q / l) := by ring
    rw [e]
    have : 1 ≤ q / l := by rw [le_div_iff₀ hl]; linarith
    linarith

/-- Integers up to 2048 are halves. -/
theorem rnd16_nat {n : ℕ} (h : n ≤ 2048) : rnd16 (n : ℚ) = n := by
  have key : ((List.range 2049).all fun n => decide (rnd16 (n : ℚ) = n)) = true := by decide +kernel
  rw [List.all_eq_true] at key
  simpa using key n (by simp; omega)

theorem rnd16_natRel {n : ℕ} (h : n ≤ 4095) : Rel (1 / 2 ^ 11 + 1 / 2 ^ 25) (rnd16 (n : ℚ)) n := by
  have hn : (n : ℚ) ≤ 4095 := by exact_mod_cast h
  have := rnd16_rel (q := (n : ℚ)) (l := 1) one_pos (by
    rcases Nat.eq_zero_or_pos n with h0 | h0
    · left; rw [h0]; rfl
    · right; exact_mod_cast h0) (by linarith)
  rwa [div_one] at this

end PicScale
