import Verif.Lemmas.AlphaX86U16
import Verif.Props.AlphaX86

/-!
Property theorems about RGBA16 alpha handling with the x86 vector handlers: C67–C72.
-/

namespace PicScale

open Spec

/-! ### values -/

theorem u16_eq {v : ℤ} (h0 : 0 ≤ v) (h : v < 65536) : ((u16 v : ℕ) : ℤ) = v := by
  unfold u16; omega

theorem intLane_eq {k c a : ℕ} (hk : k = 10 ∨ k = 12 ∨ k = 16) (hc : c ≤ 32767) (ha : a ≤ 32767)
    (hc' : c ≤ 2 ^ k - 1) (ha' : a ≤ 2 ^ k - 1) :
    u16 (max 0 (min (i32 (intLane k c a)) 65535)) = roundDiv (c * a) (2 ^ k - 1) := by
  have hab : c * a ≤ 32767 * 32767 := Nat.mul_le_mul hc ha
  have hab' : c * a ≤ (2 ^ k - 1) * (2 ^ k - 1) := Nat.mul_le_mul hc' ha'
  unfold intLane
  dsimp only
  rw [i16_eq_self (v := (c : ℤ)) (by omega) (by omega), i16_eq_self (v := (a : ℤ)) (by omega) (by omega)]
  have e : ((c : ℤ) * a) = ((c * a : ℕ) : ℤ) := by push_cast; rfl
  rw [e]
  generalize c * a = v at *
  rcases hk with rfl | rfl | rfl
  all_goals
    norm_num at hab hab' ⊢
    rw [roundDiv_eq (by omega)]
    simp only [Int.shiftRight_eq_div_pow]
    norm_num
  · rw [i32_eq_self (v := (v : ℤ) + 512) (by omega) (by omega),
      i32_eq_self (v := (v : ℤ) + 512 + ((v : ℤ) + 512) % 4294967296 / 1024) (by omega) (by omega),
      i32_eq_self (by omega) (by omega), Int.emod_eq_of_lt (a := (v : ℤ) + 512) (by omega) (by omega),
      Int.emod_eq_of_lt (a := (v : ℤ) + 512 + ((v : ℤ) + 512) / 1024) (by omega) (by omega),
      min_eq_left (by omega), max_eq_right (by omega)]
    have key : (v + 512 + (v + 512) / 1024) / 1024 = (2 * v + 1023) / 2046 := by omega
    have cast : ((v : ℤ) + 512 + ((v : ℤ) + 512) / 1024) / 1024 = (((v + 512 + (v + 512) / 1024) / 1024 : ℕ) : ℤ) := by push_cast; rfl
    rw [cast, u16_nat, key]
    exact Nat.mod_eq_of_lt (by omega)
  · rw [i32_eq_self (v := (v : ℤ) + 2048) (by omega) (by omega),
      i32_eq_self (v := (v : ℤ) + 2048 + ((v : ℤ) + 2048) % 4294967296 / 4096) (by omega) (by omega),
      i32_eq_self (by omega) (by omega), Int.emod_eq_of_lt (a := (v : ℤ) + 2048) (by omega) (by omega),
      Int.emod_eq_of_lt (a := (v : ℤ) + 2048 + ((v : ℤ) + 2048) / 4096) (by omega) (by omega),
      min_eq_left (by omega), max_eq_right (by omega)]
    have key : (v + 2048 + (v + 2048) / 4096) / 4096 = (2 * v + 4095) / 8190 := by omega
    have cast : ((v : ℤ) + 2048 + ((v : ℤ) + 2048) / 4096) / 4096 = (((v + 2048 + (v + 2048) / 4096) / 4096 : ℕ) : ℤ) := by push_cast; rfl
    rw [cast, u16_nat, key]
    exact Nat.mod_eq_of_lt (by omega)
  · rw [i32_eq_self (v := (v : ℤ) + 32768) (by omega) (by omega),
      i32_eq_self (v := (v : ℤ) + 32768 + ((v : ℤ) + 32768) % 4294967296 / 65536) (by omega) (by omega),
      i32_eq_self (by omega) (by omega), Int.emod_eq_of_lt (a := (v : ℤ) + 32768) (by omega) (by omega),
      Int.emod_eq_of_lt (a := (v : ℤ) + 32768 + ((v : ℤ) + 32768) / 65536) (by omega) (by omega),
      min_eq_left (by omega), max_eq_right (by omega)]
    have key : (v + 32768 + (v + 32768) / 65536) / 65536 = (2 * v + 65535) / 131070 := by omega
    have cast : ((v : ℤ) + 32768 + ((v : ℤ) + 32768) / 65536) / 65536 = (((v + 32768 + (v + 32768) / 65536) / 65536 : ℕ) : ℤ) := by push_cast; rfl
    rw [cast, u16_nat, key]
    exact Nat.mod_eq_of_lt (by omega)

/-- Two roundings of `x * (y * s)` where `s` is within `δ` (relative to `r`) of `r`. -/
theorem two_mul_err {x y s r δ : ℚ} (hx : 0 ≤ x) (hx' : x ≤ 65536) (hr : 0 ≤ r)
    (hδ : δ ≤ 1 / 2) (hs : |y * s - r| ≤ r * δ) :
    |x * F32.mul y s - x * r| ≤ x * r * (δ + 2 / 2 ^ 24) + 1 / 1000000000000 := by
  have h1 : |y * s| ≤ r * 2 := by
    calc |y * s| = |(y * s - r) + r| := by congr 1; ring
      _ ≤ |y * s - r| + |r| := abs_add_le _ _
      _ ≤ r * δ + r := by rw [abs_of_nonneg hr]; linarith
      _ ≤ r * 2 := by nlinarith
  have h2 := F32.rnd_err_le (y * s)
  have h3 : |F32.mul y s - r| ≤ r * δ + (r * 2 / 2 ^ 24 + 1 / 2 ^ 150) := by
    unfold F32.mul
    calc |F32.rnd (y * s) - r| = |(F32.rnd (y * s) - y * s) + (y * s - r)| := by congr 1; ring
      _ ≤ |F32.rnd (y * s) - y * s| + |y * s - r| := abs_add_le _ _
      _ ≤ _ := by
        have : |y * s| / 2 ^ 24 ≤ r * 2 / 2 ^ 24 := by gcongr
        linarith
  rw [← mul_sub, abs_mul, abs_of_nonneg hx]
  calc x * |F32.mul y s - r| ≤ x * (r * δ + (r * 2 / 2 ^ 24 + 1 / 2 ^ 150)) := by gcongr
    _ = x * r * (δ + 2 / 2 ^ 24) + x * (1 / 2 ^ 150) := by ring
    _ ≤ _ := by
      have : x * (1 / 2 ^ 150) ≤ 65536 * (1 / 2 ^ 150) := by gcongr
      have h : (65536 : ℚ) * (1 / 2 ^ 150) ≤ 1 / 1000000000000 := by norm_num
      linarith

/-- Adding one more rounding and an optional constant. -/
theorem last_rnd {z e b δ : ℚ} (he : 0 ≤ e) (hb : 0 ≤ b) (hb' : b ≤ 1 / 2) (hδ : δ ≤ 1 / 2)
    (h : |z - e| ≤ e * δ + 1 / 1000000000000) :
    |F32.rnd (z + b) - (e + b)| ≤ e * (δ + 2 / 2 ^ 24) + 1 / 10000000 := by
  have h1 : |z + b| ≤ e * 2 + 1 := by
    calc |z + b| = |(z - e) + (e + b)| := by congr 1; ring
      _ ≤ |z - e| + |e + b| := abs_add_le _ _
      _ ≤ (e * δ + 1 / 1000000000000) + (e + b) := by rw [abs_of_nonneg (by linarith : 0 ≤ e + b)]; linarith
      _ ≤ _ := by nlinarith
  have h2 := F32.rnd_err_le (z + b)
  calc |F32.rnd (z + b) - (e + b)| = |(F32.rnd (z + b) - (z + b)) + (z - e)| := by congr 1; ring
    _ ≤ |F32.rnd (z + b) - (z + b)| + |z - e| := abs_add_le _ _
    _ ≤ ((e * 2 + 1) / 2 ^ 24 + 1 / 2 ^ 150) + (e * δ + 1 / 1000000000000) := by
      have : |z + b| / 2 ^ 24 ≤ (e * 2 + 1) / 2 ^ 24 := by gcongr
      linarith
    _ ≤ _ := by
      have : (1 : ℚ) / 2 ^ 24 + 1 / 2 ^ 150 + 1 / 1000000000000 ≤ 1 / 10000000 := by norm_num
      have e1 : (e * 2 + 1) / 2 ^ 24 = e * (2 / 2 ^ 24) + 1 / 2 ^ 24 := by ring
      rw [e1, mul_add]
      linarith

/-- The scale of the general premultiplication. -/
theorem scale_err {M y : ℕ} (hM : 1 ≤ M) (hM' : M ≤ 65535) :
    |(y : ℚ) * F32.rnd (1 / (M : ℚ)) - (y : ℚ) / M| ≤ (y : ℚ) / M * (1 / 2 ^ 24) := by
  have hMq : (1 : ℚ) ≤ M := by exact_mod_cast hM
  have hMq' : (M : ℚ) ≤ 65535 := by exact_mod_cast hM'
  have hp : (0 : ℚ) < 1 / M := by positivity
  have h := F32.rnd_err_rel (q := 1 / (M : ℚ)) (by
    rw [abs_of_pos hp]
    calc (1 : ℚ) / 2 ^ 126 ≤ 1 / 65535 := by norm_num
      _ ≤ 1 / M := by gcongr)
  rw [abs_of_pos hp] at h
  have : (y : ℚ) * F32.rnd (1 / (M : ℚ)) - (y : ℚ) / M = y * (F32.rnd (1 / (M : ℚ)) - 1 / M) := by ring
  rw [this, abs_mul, abs_of_nonneg (by positivity : (0 : ℚ) ≤ y)]
  calc (y : ℚ) * |F32.rnd (1 / (M : ℚ)) - 1 / M| ≤ y * (1 / M / 2 ^ 24) := by gcongr
    _ = _ := by ring

/-- `(1. / max as f64) as f32` is `1 / max` correctly rounded, for every depth. -/
theorem scale64_eq {d : ℕ} (h1 : 1 ≤ d) (h2 : d ≤ 16) :
    F32.rnd (rnd64 (1 / ((2 ^ d - 1 : ℕ) : ℚ))) = F32.rnd (1 / ((2 ^ d - 1 : ℕ) : ℚ)) := by
  have : ∀ d ∈ List.range' 1 16, F32.rnd (rnd64 (1 / ((2 ^ d - 1 : ℕ) : ℚ))) = F32.rnd (1 / ((2 ^ d - 1 : ℕ) : ℚ)) := by
    decide +kernel
  exact this d (by rw [List.mem_range'_1]; omega)

/-- The scaled product before conversion: `b` is 0, or 1/2 when fused. -/
theorem premul_product {M c a : ℕ} (hM : 1 ≤ M) (hM' : M ≤ 65535) (hc : c ≤ 65535) {b : ℚ} (hb : 0 ≤ b) (hb' : b ≤ 1 / 2) :
    |F32.rnd ((c : ℚ) * F32.mul (a : ℚ) (F32.rnd (1 / (M : ℚ))) + b) - ((c : ℚ) * a / M + b)| ≤
      (c : ℚ) * a / M * (5 / 2 ^ 24) + 1 / 10000000 := by
  have hcq : (c : ℚ) ≤ 65536 := by exact_mod_cast (by omega : c ≤ 65536)
  have h := two_mul_err (x := (c : ℚ)) (y := (a : ℚ)) (s := F32.rnd (1 / (M : ℚ))) (r := (a : ℚ) / M) (δ := 1 / 2 ^ 24)
    (by positivity) hcq (by positivity) (by norm_num) (scale_err hM hM')
  have e : (c : ℚ) * (a / M) = c * a / M := by ring
  rw [e] at h
  have := last_rnd (b := b) (by positivity) hb hb' (by norm_num) h
  convert this using 3
  norm_num

theorem cvt_near {q e : ℚ} (he : 0 ≤ e) (he' : e ≤ 70000) (h : |q - e| ≤ e / 4 + 1) : cvt1 q = F32.rhe q := by
  apply cvt1_eq
  rw [abs_le] at h ⊢
  norm_num
  constructor <;> linarith

/-- A conversion of a value close to `e ≤ hi`, saturated at `hi`, stored. -/
theorem stored_err {q e t : ℚ} {hi lo : ℤ} (hlo : lo ≤ 0) (hhi : hi ≤ 65535) (he : 0 ≤ e) (he' : e ≤ hi)
    (ht : t ≤ e / 8 + 1 / 4) (h : |q - e| ≤ t) :
    |((u16 (max lo (min (cvt1 q) hi)) : ℕ) : ℚ) - e| ≤ 1 / 2 + t := by
  have hhi' : (hi : ℚ) ≤ 65535 := by exact_mod_cast hhi
  have hc := cvt_near (q := q) he (by linarith) (by linarith)
  rw [hc]
  have hs := F32.rhe_spec q
  rw [abs_le] at hs h
  have hn : 0 ≤ F32.rhe q := by
    have : (-1 : ℚ) < F32.rhe q := by linarith
    have : (-1 : ℤ) < F32.rhe q := by exact_mod_cast this
    omega
  have hi0 : 0 ≤ hi := by
    have : (0 : ℚ) ≤ hi := by linarith
    exact_mod_cast this
  have e1 := u16_eq (v := max lo (min (F32.rhe q) hi)) (by omega) (by omega)
  have e2 : ((u16 (max lo (min (F32.rhe q) hi)) : ℕ) : ℚ) = (min (F32.rhe q) hi : ℤ) := by
    have : max lo (min (F32.rhe q) hi) = min (F32.rhe q) hi := by omega
    rw [this] at e1 ⊢
    exact_mod_cast e1
  rw [e2, abs_le]
  push_cast
  rcases le_total ((F32.rhe q : ℤ) : ℚ) hi with h1 | h1
  · rw [min_eq_left h1]; constructor <;> linarith
  · rw [min_eq_right h1]; constructor <;> linarith

/-- The result of the general premultiplication. -/
theorem premul_close {M c a v : ℕ} {q : ℚ} {hi lo : ℤ} (hM : 1 ≤ M) (hc : c ≤ M) (ha : a ≤ M)
    (hlo : lo ≤ 0) (hhi : hi ≤ 65535) (hMh : (M : ℤ) ≤ hi)
    (hq : |q - (c : ℚ) * a / M| ≤ (c : ℚ) * a / M * (5 / 2 ^ 24) + 1 / 10000000)
    (hM' : M ≤ 32767) (hv : v = u16 (max lo (min (cvt1 q) hi))) : Premultiplied16 M c a v := by
  have hMq : (1 : ℚ) ≤ M := by exact_mod_cast hM
  have hMq' : (M : ℚ) ≤ 32767 := by exact_mod_cast hM'
  have hcq : (c : ℚ) ≤ M := by exact_mod_cast hc
  have haq : (a : ℚ) ≤ M := by exact_mod_cast ha
  have ha0 : (0 : ℚ) ≤ a := by positivity
  have he : (c : ℚ) * a / M ≤ M := by
    rw [div_le_iff₀ (by linarith)]
    calc (c : ℚ) * a ≤ M * a := by gcongr
      _ ≤ M * M := by gcongr
  have hMhq : (M : ℚ) ≤ hi := by exact_mod_cast hMh
  have h := stored_err (q := q) (e := (c : ℚ) * a / M) (lo := lo) hlo hhi (by positivity) (by linarith) (by
    have : 0 ≤ (c : ℚ) * a / M := by positivity
    norm_num at this ⊢
    linarith) hq
  rw [← hv] at h
  unfold Premultiplied16
  refine h.trans ?_
  norm_num
  linarith

/-! ### images -/

/-- The colour function of the vector premultiplication for a depth. -/
def premul16Lane (avx2 fma : Bool) (d : ℕ) (c a : ℕ) : ℤ :=
  if d = 10 ∨ d = 12 ∨ d = 16 then max 0 (min (i32 (intLane (divExponent d) c a)) 65535)
  else if avx2 then max 0 (min (scaleLane fma c (F32.mul ((a : ℕ) : ℚ) (F32.rnd (rnd64 (1 / ((2 ^ d - 1 : ℕ) : ℚ)))))) 65535)
  else max (-32768) (min (cvt1 (F32.mul (F32.mul ((c : ℕ) : ℚ) (F32.div 1 (F32.rnd ((2 ^ d - 1 : ℕ) : ℚ)))) ((a : ℕ) : ℚ))) 32767)

/-- The colour function of the vector unpremultiplication for a depth. -/
def unpremul16Lane (avx2 fma : Bool) (rcp : ℚ → ℚ) (d : ℕ) (c a : ℕ) : ℤ :=
  if a = 0 then (c : ℤ)
  else if avx2 then max 0 (min (scaleLane fma c (F32.mul (rcp ((a : ℕ) : ℚ)) (F32.rnd ((2 ^ d - 1 : ℕ) : ℚ)))) 65535)
  else max (-32768) (min (unpremulLane16 rcp (2 ^ d - 1) c a) 32767)

theorem premultiply16_spec {cpu : Cpu} {fma : Bool} {rcp : ℚ → ℚ} {src dst : Image ℕ}
    (hcpu : cpu.avx2 = true ∨ cpu.sse41 = true)
    (hs : src.validate 4 = .ok ()) (hd : dst.validate 4 = .ok ())
    (hw : src.width = dst.width) (hh : src.height = dst.height) (hp : 0 < dst.width) :
    ∃ out, (alphaX86U16 cpu fma rcp).premultiply src dst = some out ∧ SameShape out dst ∧ PaddingKept 4 dst out ∧
      ∀ y x c, y < dst.height → x < dst.width → c < 4 → sample out.buffer (dst.strideOf 4) 4 y x c =
        some (pixelVal (u16Col (premul16Lane cpu.avx2 fma dst.bitDepth)) (· % 65536)
          (fun c => pxD 0 src.buffer (src.strideOf 4) 4 y x c) c) := by
  by_cases ha : cpu.avx2 = true
  · have hl : LaneFn (if dst.bitDepth = 10 ∨ dst.bitDepth = 12 ∨ dst.bitDepth = 16 then premulLanesInt (divExponent dst.bitDepth)
        else premulLanesAvx fma (F32.rnd (rnd64 (1 / ((2 ^ dst.bitDepth - 1 : ℕ) : ℚ)))))
        (premul16Lane cpu.avx2 fma dst.bitDepth) := by
      unfold premul16Lane
      split_ifs
      · exact premulLanesInt_lane _
      · exact premulLanesAvx_lane _ _
    have := premultiplyImageWith_spec (alphaChunks_ok (by norm_num) (by norm_num) (avxChunk16_pixelwise hl)) hs hd hw hh hp
    unfold alphaX86U16 avxPremulRow16
    simp only [ha, if_true] at this ⊢
    exact this
  · have hs4 : cpu.sse41 = true := by tauto
    have hl : LaneFn (if dst.bitDepth = 10 ∨ dst.bitDepth = 12 ∨ dst.bitDepth = 16 then premulLanesInt (divExponent dst.bitDepth)
        else premulLanesSse (F32.div 1 (F32.rnd ((2 ^ dst.bitDepth - 1 : ℕ) : ℚ))))
        (premul16Lane cpu.avx2 fma dst.bitDepth) := by
      unfold premul16Lane
      split_ifs
      · exact premulLanesInt_lane _
      · exact premulLanesSse_lane _
    have := premultiplyImageWith_spec (alphaChunks_ok (by norm_num) (by norm_num) (sseChunk16_pixelwise hl)) hs hd hw hh hp
    unfold alphaX86U16 ssePremulRow16
    simp only [ha, hs4, if_true, if_false] at this ⊢
    exact this

theorem unpremultiply16_spec {cpu : Cpu} {fma : Bool} {rcp : ℚ → ℚ} {img : Image ℕ}
    (hcpu : cpu.avx2 = true ∨ cpu.sse41 = true) (hs : img.validate 4 = .ok ()) (hp : 0 < img.width) :
    ∃ out, (alphaX86U16 cpu fma rcp).unpremultiply img = some out ∧ SameShape out img ∧ PaddingKept 4 img out ∧
      ∀ y x c, y < img.height → x < img.width → c < 4 → sample out.buffer (img.strideOf 4) 4 y x c =
        some (pixelVal (u16Col (unpremul16Lane cpu.avx2 fma rcp img.bitDepth)) (· % 65536)
          (fun c => pxD 0 img.buffer (img.strideOf 4) 4 y x c) c) := by
  by_cases ha : cpu.avx2 = true
  · have hl : LaneFn (unpremulLanes16Avx fma rcp (2 ^ img.bitDepth - 1)) (unpremul16Lane cpu.avx2 fma rcp img.bitDepth) := by
      have h := unpremulLanes16Avx_lane fma rcp (2 ^ img.bitDepth - 1)
      unfold unpremul16Lane
      simp only [ha, if_true]
      exact h
    have := unpremultiplyImageWith_spec (alphaChunksInPlace_ok (by norm_num) (by norm_num) (avxChunk16_pixelwise hl)) hs hp
    unfold alphaX86U16 avxUnpremulRow16
    simp only [ha, if_true] at this ⊢
    exact this
  · have hs4 : cpu.sse41 = true := by tauto
    have hl : LaneFn (unpremulLanes16Sse rcp (2 ^ img.bitDepth - 1)) (unpremul16Lane cpu.avx2 fma rcp img.bitDepth) := by
      have h := unpremulLanes16Sse_lane rcp (2 ^ img.bitDepth - 1)
      unfold unpremul16Lane
      simp only [ha, if_false]
      exact h
    have := unpremultiplyImageWith_spec (alphaChunksInPlace_ok (by norm_num) (by norm_num) (sseChunk16_pixelwise hl)) hs hp
    unfold alphaX86U16 sseUnpremulRow16
    simp only [ha, hs4, if_true, if_false] at this ⊢
    exact this

theorem pxD_le_depth {d : ℕ} {img : Image ℕ} (hb : FitsDepth d img) (y x c : ℕ) :
    pxD 0 img.buffer (img.strideOf 4) 4 y x c ≤ 2 ^ d - 1 := by
  simp only [pxD, sample]
  exact getD_le_of_forall hb _

theorem depth_max_le {d : ℕ} (h : d ≤ 16) : 2 ^ d - 1 ≤ 65535 := by
  have : 2 ^ d ≤ 2 ^ 16 := Nat.pow_le_pow_right (by norm_num) h
  norm_num at this
  omega

namespace Demo
/-- A 2×1 RGBA image of 10-bit samples with padding. -/
def a10src : Image ℕ :=
  { buffer := [1000, 500, 1, 512, 1023, 20, 30, 1023, 7], channels := 4, width := 2, height := 1, stride := 9, bitDepth := 10 }
/-- A 2×1 premultiplied RGBA image of 10-bit samples with padding. -/
def a10pre : Image ℕ :=
  { buffer := [500, 250, 1, 512, 1023, 20, 30, 1023, 7], channels := 4, width := 2, height := 1, stride := 9, bitDepth := 10 }
/-- A destination of the given depth. -/
def a16dst (d : ℕ) : Image ℕ :=
  { buffer := List.replicate 10 3, channels := 4, width := 2, height := 1, stride := 10, bitDepth := d }
/-- A 1×1 opaque white image of the given depth. -/
def white16 (d : ℕ) : Image ℕ :=
  { buffer := [2 ^ d - 1, 2 ^ d - 1, 2 ^ d - 1, 2 ^ d - 1], channels := 4, width := 1, height := 1, stride := 4, bitDepth := d }
end Demo

/-! ### C67: premultiplication at 10 and 12 bits -/

/-- **C67.** On a CPU with SSE4.1 or AVX2, premultiplying any 10-bit or 12-bit RGBA16 image into any image of
the same size succeeds without leaving a buffer, replaces every colour by `c * a / max` exactly rounded, keeps every
alpha and does not touch row padding. -/
theorem C67_premultiply {cpu : Cpu} {fma : Bool} {rcp : ℚ → ℚ} {src dst : Image ℕ}
    (hcpu : cpu.avx2 = true ∨ cpu.sse41 = true) (hdep : dst.bitDepth = 10 ∨ dst.bitDepth = 12)
    (hs : src.validate 4 = .ok ()) (hd : dst.validate 4 = .ok ())
    (hw : src.width = dst.width) (hh : src.height = dst.height) (hp : 0 < dst.width)
    (hb : FitsDepth dst.bitDepth src) :
    ∃ out, (alphaX86U16 cpu fma rcp).premultiply src dst = some out ∧ SameShape out dst ∧ PaddingKept 4 dst out ∧
      ∀ y x, y < dst.height → x < dst.width →
        (∀ c, c < 3 → sample out.buffer (dst.strideOf 4) 4 y x c =
          some (roundDiv (pxD 0 src.buffer (src.strideOf 4) 4 y x c * alphaAt src.buffer (src.strideOf 4) y x)
            (2 ^ dst.bitDepth - 1))) ∧
        sample out.buffer (dst.strideOf 4) 4 y x 3 = some (alphaAt src.buffer (src.strideOf 4) y x) := by
  obtain ⟨out, o1, o2, o3, o4⟩ := premultiply16_spec (fma := fma) (rcp := rcp) hcpu hs hd hw hh hp
  have hM := depth_max_le (d := dst.bitDepth) (by omega)
  have hM2 : 2 ^ dst.bitDepth - 1 ≤ 32767 := by rcases hdep with h | h <;> rw [h] <;> norm_num
  refine ⟨out, o1, o2, o3, fun y x hy hx => ⟨fun c hc => ?_, ?_⟩⟩
  · rw [o4 y x c hy hx (by omega), pixelVal, if_pos hc]
    have h1 := pxD_le_depth hb y x c
    have h2 := pxD_le_depth hb y x 3
    unfold u16Col
    rw [Nat.mod_eq_of_lt (by omega), Nat.mod_eq_of_lt (by omega)]
    have hk : divExponent dst.bitDepth = dst.bitDepth := by
      unfold divExponent; rcases hdep with h | h <;> rw [h] <;> rfl
    unfold premul16Lane
    rw [if_pos (by tauto), hk, intLane_eq (by omega) (by omega) (by omega) h1 h2]
    rfl
  · rw [o4 y x 3 hy hx (by omega), pixelVal, if_neg (by omega)]
    have h2 := pxD_le_depth hb y x 3
    congr 1
    exact Nat.mod_eq_of_lt (by omega)

example : ∃ out, (alphaX86U16 ⟨true, true⟩ true (fun n => 1 / n)).premultiply Demo.a10src (Demo.a16dst 10) = some out ∧
    sample out.buffer 10 4 0 0 0 = some 500 ∧ sample out.buffer 10 4 0 0 3 = some 512 := by
  obtain ⟨out, h, _, _, h'⟩ := C67_premultiply (cpu := ⟨true, true⟩) (fma := true) (rcp := fun n => 1 / n) (src := Demo.a10src)
    (dst := Demo.a16dst 10) (by decide) (Or.inl rfl) (by decide) (by decide) rfl rfl (by decide) (by unfold FitsDepth; decide)
  refine ⟨out, h, ?_, (h' 0 0 (by decide) (by decide)).2⟩
  have := (h' 0 0 (by decide) (by decide)).1 0 (by decide)
  rw [roundDiv_eq (by decide)] at this
  exact this

/-! ### C68: premultiplication at 16 bits -/

/-- **C68, dark images.** At 16 bits the same holds for images whose samples are below 32768. Missing: brighter samples
(`C68_violated`). -/
theorem C68_premultiply_partial {cpu : Cpu} {fma : Bool} {rcp : ℚ → ℚ} {src dst : Image ℕ}
    (hcpu : cpu.avx2 = true ∨ cpu.sse41 = true) (hdep : dst.bitDepth = 16)
    (hs : src.validate 4 = .ok ()) (hd : dst.validate 4 = .ok ())
    (hw : src.width = dst.width) (hh : src.height = dst.height) (hp : 0 < dst.width)
    (hb : FitsDepth 15 src) :
    ∃ out, (alphaX86U16 cpu fma rcp).premultiply src dst = some out ∧ SameShape out dst ∧ PaddingKept 4 dst out ∧
      ∀ y x, y < dst.height → x < dst.width →
        (∀ c, c < 3 → sample out.buffer (dst.strideOf 4) 4 y x c =
          some (roundDiv (pxD 0 src.buffer (src.strideOf 4) 4 y x c * alphaAt src.buffer (src.strideOf 4) y x) 65535)) ∧
        sample out.buffer (dst.strideOf 4) 4 y x 3 = some (alphaAt src.buffer (src.strideOf 4) y x) := by
  obtain ⟨out, o1, o2, o3, o4⟩ := premultiply16_spec (fma := fma) (rcp := rcp) hcpu hs hd hw hh hp
  refine ⟨out, o1, o2, o3, fun y x hy hx => ⟨fun c hc => ?_, ?_⟩⟩
  · rw [o4 y x c hy hx (by omega), pixelVal, if_pos hc]
    have h1 := pxD_le_depth hb y x c
    have h2 := pxD_le_depth hb y x 3
    norm_num at h1 h2
    unfold u16Col
    rw [Nat.mod_eq_of_lt (by omega), Nat.mod_eq_of_lt (by omega)]
    unfold premul16Lane
    rw [hdep, if_pos (by omega), show divExponent 16 = 16 from rfl,
      intLane_eq (by omega) (by omega) (by omega) (by norm_num; omega) (by norm_num; omega)]
    rfl
  · rw [o4 y x 3 hy hx (by omega), pixelVal, if_neg (by omega)]
    have h2 := pxD_le_depth hb y x 3
    norm_num at h2
    congr 1
    exact Nat.mod_eq_of_lt (by omega)

example : ∃ out, (alphaX86U16 ⟨true, false⟩ true (fun n => 1 / n)).premultiply Demo.a10src (Demo.a16dst 16) = some out := by
  obtain ⟨out, h, _⟩ := C68_premultiply_partial (cpu := ⟨true, false⟩) (fma := true) (rcp := fun n => 1 / n) (src := Demo.a10src)
    (dst := Demo.a16dst 16) (by decide) rfl (by decide) (by decide) rfl rfl (by decide) (by unfold FitsDepth; decide)
  exact ⟨out, h⟩

theorem intLane_bright {c : ℕ} (h1 : 32769 ≤ c) (h2 : c ≤ 65535) :
    u16 (max 0 (min (i32 (intLane 16 c 65535)) 65535)) = 0 := by
  have e1 : i16 (c : ℤ) = (c : ℤ) - 65536 := by
    rw [i16_congr (b := (c : ℤ) - 65536) (by omega)]
    exact i16_eq_self (by omega) (by omega)
  have e2 : i16 ((65535 : ℕ) : ℤ) = -1 := by
    rw [i16_congr (b := -1) (by norm_num)]
    exact i16_eq_self (by omega) (by omega)
  unfold intLane
  dsimp only
  rw [e1, e2]
  have e3 : ((c : ℤ) - 65536) * -1 = ((65536 - c : ℕ) : ℤ) := by omega
  rw [e3]
  obtain ⟨v, hv⟩ : ∃ v, v = 65536 - c := ⟨_, rfl⟩
  rw [← hv]
  have hv1 : v ≤ 32767 := by omega
  norm_num
  simp only [Int.shiftRight_eq_div_pow]
  norm_num
  rw [i32_eq_self (v := (v : ℤ) + 32768) (by omega) (by omega),
    Int.emod_eq_of_lt (a := (v : ℤ) + 32768) (by omega) (by omega),
    show ((v : ℤ) + 32768) / 65536 = 0 by omega, add_zero,
    i32_eq_self (v := (v : ℤ) + 32768) (by omega) (by omega),
    Int.emod_eq_of_lt (a := (v : ℤ) + 32768) (by omega) (by omega),
    show ((v : ℤ) + 32768) / 65536 = 0 by omega, i32_eq_self (by omega) (by omega)]
  rfl

/-- **C68 fails for bright samples**: premultiplying any 16-bit image on any CPU with SSE4.1 or AVX2 turns every
opaque colour above 32768 into 0 (the products are taken as signed). -/
theorem C68_violated {cpu : Cpu} {fma : Bool} {rcp : ℚ → ℚ} {src dst : Image ℕ}
    (hcpu : cpu.avx2 = true ∨ cpu.sse41 = true) (hdep : dst.bitDepth = 16)
    (hs : src.validate 4 = .ok ()) (hd : dst.validate 4 = .ok ())
    (hw : src.width = dst.width) (hh : src.height = dst.height) (hp : 0 < dst.width) (hb : FitsDepth 16 src)
    {y x c : ℕ} (hy : y < dst.height) (hx : x < dst.width) (hc : c < 3)
    (ho : alphaAt src.buffer (src.strideOf 4) y x = 65535)
    (hv : 32768 < pxD 0 src.buffer (src.strideOf 4) 4 y x c) :
    ∃ out, (alphaX86U16 cpu fma rcp).premultiply src dst = some out ∧
      sample out.buffer (dst.strideOf 4) 4 y x c = some 0 := by
  obtain ⟨out, o1, o2, o3, o4⟩ := premultiply16_spec (fma := fma) (rcp := rcp) hcpu hs hd hw hh hp
  refine ⟨out, o1, ?_⟩
  rw [o4 y x c hy hx (by omega), pixelVal, if_pos hc]
  have h1 := pxD_le_depth hb y x c
  norm_num at h1
  unfold alphaAt at ho
  unfold u16Col premul16Lane
  rw [ho, Nat.mod_eq_of_lt (by omega), hdep, if_pos (by omega), show divExponent 16 = 16 from rfl, show 65535 % 65536 = 65535 from rfl,
    intLane_bright (by omega) (by omega)]

/-- White becomes black. -/
example : ∃ out, (alphaX86U16 ⟨true, true⟩ true (fun n => 1 / n)).premultiply (Demo.white16 16) (Demo.white16 16) = some out ∧
    sample out.buffer 4 4 0 0 0 = some 0 :=
  C68_violated (cpu := ⟨true, true⟩) (src := Demo.white16 16) (dst := Demo.white16 16) (by decide) rfl (by decide) (by decide)
    rfl rfl (by decide) (by unfold FitsDepth; decide) (y := 0) (x := 0) (c := 0) (by decide) (by decide) (by decide) (by decide) (by decide)

/-! ### C69: premultiplication at other depths -/

/-- **C69, without fused multiply-add.** At every other depth, on a CPU with SSE4.1, or with AVX2 but without FMA,
every colour becomes `c * a / max` to within 51/100, every alpha is kept, and row padding is not touched. Missing:
CPUs with FMA (`C69_violated`). -/
theorem C69_premultiply_partial {cpu : Cpu} {fma : Bool} {rcp : ℚ → ℚ} {src dst : Image ℕ}
    (hcpu : cpu.avx2 = true ∧ fma = false ∨ cpu.avx2 = false ∧ cpu.sse41 = true)
    (hdep : 1 ≤ dst.bitDepth ∧ dst.bitDepth ≤ 15 ∧ dst.bitDepth ≠ 10 ∧ dst.bitDepth ≠ 12)
    (hs : src.validate 4 = .ok ()) (hd : dst.validate 4 = .ok ())
    (hw : src.width = dst.width) (hh : src.height = dst.height) (hp : 0 < dst.width)
    (hb : FitsDepth dst.bitDepth src) :
    ∃ out, (alphaX86U16 cpu fma rcp).premultiply src dst = some out ∧ SameShape out dst ∧ PaddingKept 4 dst out ∧
      ∀ y x, y < dst.height → x < dst.width →
        (∀ c, c < 3 → ∃ v, sample out.buffer (dst.strideOf 4) 4 y x c = some v ∧
          Premultiplied16 (2 ^ dst.bitDepth - 1) (pxD 0 src.buffer (src.strideOf 4) 4 y x c)
            (alphaAt src.buffer (src.strideOf 4) y x) v) ∧
        sample out.buffer (dst.strideOf 4) 4 y x 3 = some (alphaAt src.buffer (src.strideOf 4) y x) := by
  obtain ⟨out, o1, o2, o3, o4⟩ := premultiply16_spec (fma := fma) (rcp := rcp) (cpu := cpu) (by tauto) hs hd hw hh hp
  obtain ⟨d1, d2, d3, d4⟩ := hdep
  have hM1 : 1 ≤ 2 ^ dst.bitDepth - 1 := by
    have : 2 ^ 1 ≤ 2 ^ dst.bitDepth := Nat.pow_le_pow_right (by norm_num) d1
    omega
  have hM2 : 2 ^ dst.bitDepth - 1 ≤ 32767 := by
    have : 2 ^ dst.bitDepth ≤ 2 ^ 15 := Nat.pow_le_pow_right (by norm_num) d2
    norm_num at this
    omega
  refine ⟨out, o1, o2, o3, fun y x hy hx => ⟨fun c hc => ⟨_, o4 y x c hy hx (by omega), ?_⟩, ?_⟩⟩
  · rw [pixelVal, if_pos hc]
    have h1 := pxD_le_depth hb y x c
    have h2 := pxD_le_depth hb y x 3
    unfold alphaAt u16Col
    rw [Nat.mod_eq_of_lt (by omega), Nat.mod_eq_of_lt (by omega)]
    generalize hM : 2 ^ dst.bitDepth - 1 = M at *
    generalize pxD 0 src.buffer (src.strideOf 4) 4 y x c = v at *
    generalize pxD 0 src.buffer (src.strideOf 4) 4 y x 3 = a at *
    unfold premul16Lane
    rw [if_neg (by omega)]
    by_cases ha : cpu.avx2 = true
    · have hf : fma = false := by
        rcases hcpu with h | h
        · exact h.2
        · rw [ha] at h; exact absurd h.1 (by decide)
      rw [if_pos ha, scale64_eq d1 (by omega), hM, hf]
      have hq := premul_product (M := M) (c := v) (a := a) hM1 (by omega) (by omega) (b := 0) le_rfl (by norm_num)
      rw [add_zero, add_zero] at hq
      refine premul_close (lo := 0) (hi := 65535) hM1 h1 h2 le_rfl le_rfl (by omega) hq hM2 ?_
      congr 3
      unfold scaleLane F32.mul
      simp only [Bool.false_eq_true, if_false]
      unfold cvt1
      rw [F32.rhe_intCast]
    · rw [if_neg ha, hM]
      have hq := premul_product (M := M) (c := a) (a := v) hM1 (by omega) (by omega) (b := 0) le_rfl (by norm_num)
      rw [add_zero, add_zero] at hq
      have hMr : F32.rnd ((M : ℕ) : ℚ) = M := F32.ofNat_exact (by norm_num; omega)
      rw [hMr]
      have e : F32.mul (F32.mul (v : ℚ) (F32.div 1 (M : ℚ))) (a : ℚ) =
          F32.rnd ((a : ℚ) * F32.mul (v : ℚ) (F32.rnd (1 / (M : ℚ)))) := by
        rw [F32.div_eq (by have : M ≠ 0 := by omega
                           exact_mod_cast this), F32.mul, mul_comm]
      rw [e]
      have e2 : (a : ℚ) * v / M = (v : ℚ) * a / M := by rw [mul_comm]
      rw [e2] at hq
      exact premul_close (lo := -32768) (hi := 32767) hM1 h1 h2 (by norm_num) (by norm_num) (by omega) hq hM2 rfl
  · rw [o4 y x 3 hy hx (by omega), pixelVal, if_neg (by omega)]
    have h2 := pxD_le_depth hb y x 3
    congr 1
    exact Nat.mod_eq_of_lt (by omega)

example : ∃ out, (alphaX86U16 ⟨true, false⟩ true (fun n => 1 / n)).premultiply Demo.a10src (Demo.a16dst 14) = some out := by
  obtain ⟨out, h, _⟩ := C69_premultiply_partial (cpu := ⟨true, false⟩) (fma := true) (rcp := fun n => 1 / n) (src := Demo.a10src)
    (dst := Demo.a16dst 14) (by decide) (by decide) (by decide) (by decide) rfl rfl (by decide) (by unfold FitsDepth; decide)
  exact ⟨out, h⟩

/-- A premultiplied colour within the tolerance of C69: transparent is 0, opaque is the colour, never above the colour. -/
theorem C69_extremes {M c a v : ℕ} (hM : 1 ≤ M) (h : Premultiplied16 M c a v) :
    (a = 0 → v = 0) ∧ (a = M → v = c) ∧ (a ≤ M → v ≤ c) := by
  unfold Premultiplied16 at h
  rw [abs_le] at h
  have hMq : (1 : ℚ) ≤ M := by exact_mod_cast hM
  refine ⟨?_, ?_, ?_⟩
  · rintro rfl
    have h2 : (v : ℚ) < 1 := by push_cast at h; rw [mul_zero, zero_div] at h; linarith
    have h2 : v < 1 := by exact_mod_cast h2
    omega
  · rintro rfl
    rw [mul_div_assoc, div_self (by linarith), mul_one] at h
    have h1 : (v : ℚ) < c + 1 := by linarith
    have h2 : (c : ℚ) < v + 1 := by linarith
    have h1 : v < c + 1 := by exact_mod_cast h1
    have h2 : c < v + 1 := by exact_mod_cast h2
    omega
  · intro ha
    have haq : (a : ℚ) ≤ M := by exact_mod_cast ha
    have hc0 : (0 : ℚ) ≤ c := by positivity
    have : (c : ℚ) * a / M ≤ c := by rw [div_le_iff₀ (by linarith)]; nlinarith
    have h1 : (v : ℚ) < c + 1 := by linarith
    have h1 : v < c + 1 := by exact_mod_cast h1
    omega

example : Premultiplied16 16383 1000 512 31 := by unfold Premultiplied16; norm_num [abs_le]

/-- **C69 fails with AVX2 and FMA**: at each of these depths an opaque white pixel of value `2^d - 1` becomes `2^d`,
which does not fit the depth (1/2 is added before rounding to nearest). -/
theorem C69_violated {rcp : ℚ → ℚ} {sse : Bool} {d : ℕ} (h1 : 1 ≤ d) (h2 : d ≤ 15) (h3 : d ≠ 10) (h4 : d ≠ 12) :
    ∃ out, (alphaX86U16 ⟨sse, true⟩ true rcp).premultiply (Demo.white16 d) (Demo.white16 d) = some out ∧
      sample out.buffer 4 4 0 0 0 = some (2 ^ d) := by
  obtain ⟨out, o1, _, _, o4⟩ := premultiply16_spec (cpu := ⟨sse, true⟩) (fma := true) (rcp := rcp) (src := Demo.white16 d)
    (dst := Demo.white16 d) (Or.inl rfl) rfl rfl rfl rfl Nat.one_pos
  refine ⟨out, o1, ?_⟩
  have := o4 0 0 0 Nat.one_pos Nat.one_pos (by decide)
  refine this.trans ?_
  have key : ∀ d ∈ [1, 2, 3, 4, 5, 6, 7, 8, 9, 11, 13, 14, 15],
      u16Col (premul16Lane true true d) (2 ^ d - 1) (2 ^ d - 1) = 2 ^ d := by decide +kernel
  have hm : d ∈ [1, 2, 3, 4, 5, 6, 7, 8, 9, 11, 13, 14, 15] := by
    simp only [List.mem_cons, List.not_mem_nil]; omega
  exact congrArg some (key d hm)

/-! ### C70: alpha and padding -/

/-- **C70.** On a CPU with SSE4.1 or AVX2, at every depth, premultiplication and unpremultiplication of RGBA16 images
succeed without leaving a buffer, keep every alpha, keep the shape and do not touch row padding. -/
theorem C70_alpha_kept {cpu : Cpu} {fma : Bool} {rcp : ℚ → ℚ} (hcpu : cpu.avx2 = true ∨ cpu.sse41 = true) :
    (∀ {src dst : Image ℕ}, src.validate 4 = .ok () → dst.validate 4 = .ok () → src.width = dst.width →
      src.height = dst.height → 0 < dst.width → FitsDepth 16 src →
      ∃ out, (alphaX86U16 cpu fma rcp).premultiply src dst = some out ∧ SameShape out dst ∧ PaddingKept 4 dst out ∧
        ∀ y x, y < dst.height → x < dst.width →
          sample out.buffer (dst.strideOf 4) 4 y x 3 = some (alphaAt src.buffer (src.strideOf 4) y x)) ∧
    ∀ {img : Image ℕ}, img.validate 4 = .ok () → 0 < img.width → FitsDepth 16 img →
      ∃ out, (alphaX86U16 cpu fma rcp).unpremultiply img = some out ∧ SameShape out img ∧ PaddingKept 4 img out ∧
        ∀ y x, y < img.height → x < img.width →
          sample out.buffer (img.strideOf 4) 4 y x 3 = some (alphaAt img.buffer (img.strideOf 4) y x) := by
  refine ⟨fun {src dst} hs hd hw hh hp hb => ?_, fun {img} hs hp hb => ?_⟩
  · obtain ⟨out, o1, o2, o3, o4⟩ := premultiply16_spec (fma := fma) (rcp := rcp) hcpu hs hd hw hh hp
    refine ⟨out, o1, o2, o3, fun y x hy hx => ?_⟩
    rw [o4 y x 3 hy hx (by omega), pixelVal, if_neg (by omega)]
    have h2 := pxD_le_depth hb y x 3
    norm_num at h2
    congr 1
    exact Nat.mod_eq_of_lt (by omega)
  · obtain ⟨out, o1, o2, o3, o4⟩ := unpremultiply16_spec (fma := fma) (rcp := rcp) hcpu hs hp
    refine ⟨out, o1, o2, o3, fun y x hy hx => ?_⟩
    rw [o4 y x 3 hy hx (by omega), pixelVal, if_neg (by omega)]
    have h2 := pxD_le_depth hb y x 3
    norm_num at h2
    congr 1
    exact Nat.mod_eq_of_lt (by omega)

example : ∃ out, (alphaX86U16 ⟨true, true⟩ true (fun n => 1 / n)).unpremultiply Demo.a10src = some out ∧
    sample out.buffer 9 4 0 0 3 = some 512 := by
  obtain ⟨out, h, _, _, h'⟩ := (C70_alpha_kept (cpu := ⟨true, true⟩) (fma := true) (rcp := fun n => 1 / n) (by decide)).2
    (img := Demo.a10src) (by decide) (by decide) (by unfold FitsDepth; decide)
  exact ⟨out, h, h' 0 0 (by decide) (by decide)⟩

namespace Demo
theorem a10pre_pre : ∀ y x c, y < a10pre.height → x < a10pre.width → c < 3 →
    pxD 0 a10pre.buffer (a10pre.strideOf 4) 4 y x c ≤ alphaAt a10pre.buffer (a10pre.strideOf 4) y x := by
  have h : ∀ y < 1, ∀ x < 2, ∀ c < 3,
      pxD 0 a10pre.buffer (a10pre.strideOf 4) 4 y x c ≤ alphaAt a10pre.buffer (a10pre.strideOf 4) y x := by decide
  exact fun y x c hy hx hc => h y hy x hx c hc
end Demo

/-! ### C71, C72: unpremultiplication -/

/-- `M c rcp(a)` in binary32 with an optional 1/2. -/
theorem unpremul_product {rcp : ℚ → ℚ} (hr : ReciprocalInstruction rcp) {M c a : ℕ} (hc : c ≤ 65535) (ha : 1 ≤ a) (ha' : a ≤ 65535)
    {b : ℚ} (hb : 0 ≤ b) (hb' : b ≤ 1 / 2) :
    |F32.rnd ((c : ℚ) * F32.mul (rcp a) (M : ℚ) + b) - ((M : ℚ) * c / a + b)| ≤
      (M : ℚ) * c / a * (49 / 131072) + 1 / 10000000 := by
  have haq : (0 : ℚ) < a := by exact_mod_cast ha
  have hcq : (c : ℚ) ≤ 65536 := by exact_mod_cast (by omega : c ≤ 65536)
  have h0 := hr a ha ha'
  have hs : |rcp a * M - (M : ℚ) / a| ≤ (M : ℚ) / a * (3 / 2 ^ 13) := by
    have : rcp a * M - (M : ℚ) / a = (M : ℚ) / a * (rcp a * a - 1) := by field_simp
    rw [this, abs_mul, abs_of_nonneg (by positivity : (0 : ℚ) ≤ (M : ℚ) / a)]
    gcongr
  have h := two_mul_err (x := (c : ℚ)) (y := rcp a) (s := (M : ℚ)) (r := (M : ℚ) / a) (δ := 3 / 2 ^ 13)
    (by positivity) hcq (by positivity) (by norm_num) hs
  have e : (c : ℚ) * (M / a) = M * c / a := by ring
  rw [e] at h
  have h' := last_rnd (b := b) (by positivity) hb hb' (by norm_num) h
  refine h'.trans ?_
  have : 0 ≤ (M : ℚ) * c / a := by positivity
  norm_num
  linarith

theorem M_div_le {M c a : ℕ} (ha : 1 ≤ a) (hca : c ≤ a) : (M : ℚ) * c / a ≤ M := by
  have haq : (0 : ℚ) < a := by exact_mod_cast ha
  have hq : (c : ℚ) ≤ a := by exact_mod_cast hca
  rw [div_le_iff₀ haq]
  gcongr

theorem unpremul_ok16 {M c a v : ℕ} {q b : ℚ} {lo hi : ℤ} (ha : 1 ≤ a) (hca : c ≤ a)
    (hM : (M : ℤ) ≤ hi) (hlo : lo ≤ 0) (hhi : hi ≤ 65535) (hb : 0 ≤ b) (hb' : b ≤ 1 / 2)
    (hq : |q - ((M : ℚ) * c / a + b)| ≤ (M : ℚ) * c / a * (49 / 131072) + 1 / 10000000)
    (hv : v = u16 (max lo (min (cvt1 q) hi))) :
    |(v : ℚ) - (M : ℚ) * c / a| ≤ 1 / 2 + b + (M : ℚ) * c / a * (49 / 131072) + 1 / 10000000 := by
  have he0 : 0 ≤ (M : ℚ) * c / a := by positivity
  have he := M_div_le (M := M) ha hca
  have hMq : (M : ℚ) ≤ hi := by exact_mod_cast hM
  have hhi' : (hi : ℚ) ≤ 65535 := by exact_mod_cast hhi
  generalize (M : ℚ) * c / a = e at *
  rw [abs_le] at hq
  have hc := cvt_near (q := q) (e := e) he0 (by linarith) (by rw [abs_le]; constructor <;> linarith)
  rw [hc] at hv
  have hs := F32.rhe_spec q
  rw [abs_le] at hs
  have hn : 0 ≤ F32.rhe q := by
    have : (-1 : ℚ) < F32.rhe q := by linarith
    have : (-1 : ℤ) < F32.rhe q := by exact_mod_cast this
    omega
  have hi0 : 0 ≤ hi := by
    have : (0 : ℚ) ≤ hi := by linarith
    exact_mod_cast this
  have e1 := u16_eq (v := max lo (min (F32.rhe q) hi)) (by omega) (by omega)
  have e2 : (v : ℚ) = (min (F32.rhe q) hi : ℤ) := by
    have : max lo (min (F32.rhe q) hi) = min (F32.rhe q) hi := by omega
    rw [hv]
    rw [this] at e1 ⊢
    exact_mod_cast e1
  rw [e2, abs_le]
  push_cast
  rcases le_total ((F32.rhe q : ℤ) : ℚ) hi with h1 | h1
  · rw [min_eq_left h1]; constructor <;> linarith
  · rw [min_eq_right h1]; constructor <;> linarith

/-- The stored value for a premultiplied pixel: the bias is 1/2 except with AVX2 without FMA. -/
theorem unpremul16_value {avx2 fma : Bool} {rcp : ℚ → ℚ} (hr : ReciprocalInstruction rcp) {d c a : ℕ} (hd : d ≤ 16)
    (hd' : avx2 = false → d ≤ 15) (ha : 1 ≤ a) (ha' : a ≤ 65535) (hca : c ≤ a) :
    |((u16 (unpremul16Lane avx2 fma rcp d c a) : ℕ) : ℚ) - ((2 ^ d - 1 : ℕ) : ℚ) * c / a| ≤
      1 / 2 + (if avx2 = true ∧ fma = false then 0 else 1 / 2) +
        ((2 ^ d - 1 : ℕ) : ℚ) * c / a * (49 / 131072) + 1 / 10000000 := by
  have hM := depth_max_le hd
  have hMr : F32.rnd ((2 ^ d - 1 : ℕ) : ℚ) = ((2 ^ d - 1 : ℕ) : ℚ) := F32.ofNat_exact (le_trans hM (by norm_num))
  unfold unpremul16Lane
  rw [if_neg (by omega), hMr]
  cases avx2
  · have hM2 : 2 ^ d - 1 ≤ 32767 := by
      have : 2 ^ d ≤ 2 ^ 15 := Nat.pow_le_pow_right (by norm_num) (hd' rfl)
      norm_num at this
      omega
    simp only [Bool.false_eq_true, if_false, false_and]
    generalize 2 ^ d - 1 = M at *
    have hq := unpremul_product hr (M := M) (c := c) (a := a) (by omega) ha ha' (b := 1 / 2) (by norm_num) le_rfl
    -- the SSE code rounds the product, then the sum
    have h1 := unpremul_product hr (M := M) (c := c) (a := a) (by omega) ha ha' (b := 0) le_rfl (by norm_num)
    rw [add_zero, add_zero] at h1
    have he := M_div_le (M := M) ha hca
    have he0 : 0 ≤ (M : ℚ) * c / a := by positivity
    have hMq : (M : ℚ) ≤ 32767 := by exact_mod_cast hM2
    have hadd : |F32.add (1 / 2) (F32.mul (c : ℚ) (F32.mul (rcp a) (M : ℚ))) - ((M : ℚ) * c / a + 1 / 2)| ≤
        (M : ℚ) * c / a * (49 / 131072) + 1 / 10000000 := by
      have haq : (0 : ℚ) < a := by exact_mod_cast ha
      have hcq : (c : ℚ) ≤ 65536 := by exact_mod_cast (by omega : c ≤ 65536)
      have h0 := hr a ha ha'
      have hs : |rcp a * M - (M : ℚ) / a| ≤ (M : ℚ) / a * (3 / 2 ^ 13) := by
        have : rcp a * M - (M : ℚ) / a = (M : ℚ) / a * (rcp a * a - 1) := by field_simp
        rw [this, abs_mul, abs_of_nonneg (by positivity : (0 : ℚ) ≤ (M : ℚ) / a)]
        gcongr
      have h := two_mul_err (x := (c : ℚ)) (y := rcp a) (s := (M : ℚ)) (r := (M : ℚ) / a) (δ := 3 / 2 ^ 13)
        (by positivity) hcq (by positivity) (by norm_num) hs
      have e : (c : ℚ) * (M / a) = M * c / a := by ring
      rw [e] at h
      clear hq h1 hs h0 e
      generalize (M : ℚ) * c / a = e at *
      set z : ℚ := c * F32.mul (rcp a) (M : ℚ) with hz
      have hr1 := F32.rnd_err_le z
      have hz1 : |z| ≤ e * 2 + 1 / 1000 := by
        rw [abs_le] at h ⊢
        norm_num at h
        constructor <;> linarith
      have hmul : F32.mul (c : ℚ) (F32.mul (rcp a) (M : ℚ)) = F32.rnd z := rfl
      rw [hmul]
      have h3 : |F32.rnd z - e| ≤ e * (3 / 2 ^ 13 + 5 / 2 ^ 24) + 1 / 1000000000 := by
        have : |z| / 2 ^ 24 ≤ (e * 2 + 1 / 1000) / 2 ^ 24 := by gcongr
        rw [abs_le] at h hr1 ⊢
        norm_num at h hr1 this ⊢
        constructor <;> linarith
      have hr2 := F32.rnd_err_le (1 / 2 + F32.rnd z)
      have hw1 : |1 / 2 + F32.rnd z| ≤ e * 2 + 1 := by
        rw [abs_le] at h3 ⊢
        norm_num at h3
        constructor <;> linarith
      have : |1 / 2 + F32.rnd z| / 2 ^ 24 ≤ (e * 2 + 1) / 2 ^ 24 := by gcongr
      unfold F32.add
      rw [abs_le] at h3 hr2 ⊢
      norm_num at h3 hr2 this ⊢
      constructor <;> linarith
    refine unpremul_ok16 (lo := -32768) (hi := 32767) (b := 1 / 2) (q := F32.add (1 / 2) (F32.mul (c : ℚ) (F32.mul (rcp a) (M : ℚ))))
      ha hca (by omega) (by norm_num) (by norm_num) (by norm_num) le_rfl hadd ?_
    unfold unpremulLane16
    have hMr' : F32.rnd ((M : ℕ) : ℚ) = M := hMr
    rw [hMr']
  · simp only [if_true, true_and]
    generalize 2 ^ d - 1 = M at *
    cases fma
    · simp only [if_true, if_false]
      have hq := unpremul_product hr (M := M) (c := c) (a := a) (by omega) ha ha' (b := 0) le_rfl (by norm_num)
      refine unpremul_ok16 (lo := 0) (hi := 65535) (b := 0) ha hca (by omega) (by norm_num) (by norm_num) le_rfl (by norm_num) hq ?_
      congr 3
      unfold scaleLane F32.mul
      simp only [Bool.false_eq_true, if_false]
      unfold cvt1
      rw [F32.rhe_intCast, add_zero]
    · simp only [if_false, Bool.true_eq_false]
      have hq := unpremul_product hr (M := M) (c := c) (a := a) (by omega) ha ha' (b := 1 / 2) (by norm_num) le_rfl
      exact unpremul_ok16 (lo := 0) (hi := 65535) (b := 1 / 2) ha hca (by omega) (by norm_num) (by norm_num) (by norm_num) le_rfl hq rfl

/-- **C71.** On a CPU with AVX2 at every depth, and with SSE4.1 at depths up to 15, unpremultiplying an RGBA16 image
whose colours do not exceed alpha gives `max * c / a` to within 101/100 plus 1/2048 of the value, leaves transparent pixels
alone, and keeps alpha and padding. Missing: SSE4.1 at 16 bits (`C71_violated`). -/
theorem C71_unpremultiply_partial {cpu : Cpu} {fma : Bool} {rcp : ℚ → ℚ} {img : Image ℕ}
    (hcpu : cpu.avx2 = true ∨ cpu.sse41 = true ∧ img.bitDepth ≤ 15) (hr : ReciprocalInstruction rcp)
    (hs : img.validate 4 = .ok ()) (hp : 0 < img.width) (hdep : img.bitDepth ≤ 16) (hb : FitsDepth img.bitDepth img)
    (hpre : ∀ y x c, y < img.height → x < img.width → c < 3 →
      pxD 0 img.buffer (img.strideOf 4) 4 y x c ≤ alphaAt img.buffer (img.strideOf 4) y x) :
    ∃ out, (alphaX86U16 cpu fma rcp).unpremultiply img = some out ∧ SameShape out img ∧ PaddingKept 4 img out ∧
      ∀ y x, y < img.height → x < img.width →
        (∀ c, c < 3 → ∃ v, sample out.buffer (img.strideOf 4) 4 y x c = some v ∧
          Unpremultiplied16 (2 ^ img.bitDepth - 1) (pxD 0 img.buffer (img.strideOf 4) 4 y x c)
            (alphaAt img.buffer (img.strideOf 4) y x) v) ∧
        sample out.buffer (img.strideOf 4) 4 y x 3 = some (alphaAt img.buffer (img.strideOf 4) y x) := by
  obtain ⟨out, o1, o2, o3, o4⟩ := unpremultiply16_spec (cpu := cpu) (fma := fma) (rcp := rcp) (by tauto) hs hp
  have hM := depth_max_le hdep
  refine ⟨out, o1, o2, o3, fun y x hy hx => ⟨fun c hc => ⟨_, o4 y x c hy hx (by omega), ?_⟩, ?_⟩⟩
  · rw [pixelVal, if_pos hc]
    have h1 := pxD_le_depth hb y x c
    have h2 := pxD_le_depth hb y x 3
    have h3 := hpre y x c hy hx hc
    unfold alphaAt at *
    unfold u16Col
    rw [Nat.mod_eq_of_lt (by omega), Nat.mod_eq_of_lt (by omega)]
    constructor
    · intro h0
      unfold unpremul16Lane
      rw [if_pos h0, u16_nat, Nat.mod_eq_of_lt (by omega)]
    · intro h0
      have h := unpremul16_value (avx2 := cpu.avx2) (fma := fma) hr hdep (fun h => by
        rcases hcpu with h' | h'
        · rw [h] at h'; exact absurd h' (by decide)
        · exact h'.2) (by omega) (by omega) h3
      refine h.trans ?_
      have he := M_div_le (M := 2 ^ img.bitDepth - 1) (a := pxD 0 img.buffer (img.strideOf 4) 4 y x 3) (by omega) h3
      have he0 : 0 ≤ ((2 ^ img.bitDepth - 1 : ℕ) : ℚ) * (pxD 0 img.buffer (img.strideOf 4) 4 y x c : ℕ) /
        (pxD 0 img.buffer (img.strideOf 4) 4 y x 3 : ℕ) := by positivity
      split_ifs <;> linarith
  · rw [o4 y x 3 hy hx (by omega), pixelVal, if_neg (by omega)]
    have h2 := pxD_le_depth hb y x 3
    congr 1
    exact Nat.mod_eq_of_lt (by omega)

example : ∃ out, (alphaX86U16 ⟨true, true⟩ true (fun n => 1 / n)).unpremultiply Demo.a10pre = some out := by
  obtain ⟨out, h, _⟩ := C71_unpremultiply_partial (cpu := ⟨true, true⟩) (fma := true) (rcp := fun n => 1 / n) (img := Demo.a10pre)
    (by decide) exact_reciprocal (by decide) (by decide) (by decide) (by unfold FitsDepth; decide) Demo.a10pre_pre
  exact ⟨out, h⟩

/-- The SSE4.1 value before saturation is large when the straight colour is. -/
theorem sse_large {rcp : ℚ → ℚ} (hr : ReciprocalInstruction rcp) {c a : ℕ} (ha : 1 ≤ a) (ha' : a ≤ 65535) (hca : c ≤ a)
    (hl : 33000 * a ≤ 65535 * c) : 32767 ≤ unpremulLane16 rcp 65535 c a := by
  have h1 := unpremul_product hr (M := 65535) (c := c) (a := a) (by omega) ha ha' (b := 0) le_rfl (by norm_num)
  rw [add_zero, add_zero] at h1
  have he := M_div_le (M := 65535) ha hca
  have haq : (0 : ℚ) < a := by exact_mod_cast ha
  have hlq : (33000 : ℚ) ≤ ((65535 : ℕ) : ℚ) * c / a := by
    rw [le_div_iff₀ haq]
    exact_mod_cast hl
  have hMr : F32.rnd ((65535 : ℕ) : ℚ) = ((65535 : ℕ) : ℚ) := F32.ofNat_exact (by norm_num)
  unfold unpremulLane16
  rw [hMr]
  have hmul : F32.mul (c : ℚ) (F32.mul (rcp a) ((65535 : ℕ) : ℚ)) = F32.rnd ((c : ℚ) * F32.mul (rcp a) ((65535 : ℕ) : ℚ)) := rfl
  rw [← hmul] at h1
  generalize F32.mul (c : ℚ) (F32.mul (rcp a) ((65535 : ℕ) : ℚ)) = z at *
  generalize ((65535 : ℕ) : ℚ) * c / a = e at *
  have h2 := F32.rnd_err_le (1 / 2 + z)
  unfold F32.add
  have he' : e ≤ 65535 := by refine he.trans (by norm_num)
  rw [abs_le] at h1
  have hz : |1 / 2 + z| ≤ 65600 := by rw [abs_le]; constructor <;> linarith
  have h3 : |F32.rnd (1 / 2 + z) - (1 / 2 + z)| ≤ 1 / 100 := by
    refine h2.trans ?_
    have : |1 / 2 + z| / 2 ^ 24 ≤ 65600 / 2 ^ 24 := by gcongr
    norm_num at this ⊢
    linarith
  rw [abs_le] at h3
  rw [cvt_near (e := e) (by linarith) (by linarith) (by rw [abs_le]; constructor <;> linarith)]
  have hs := F32.rhe_spec (F32.rnd (1 / 2 + z))
  rw [abs_le] at hs
  have : (32767 : ℚ) < F32.rhe (F32.rnd (1 / 2 + z)) := by linarith
  have : (32767 : ℤ) < F32.rhe (F32.rnd (1 / 2 + z)) := by exact_mod_cast this
  omega

/-- **C71 fails with SSE4.1 at 16 bits**: every straight colour above 33000 comes out as 32767. -/
theorem C71_violated {fma : Bool} {rcp : ℚ → ℚ} {img : Image ℕ} (hr : ReciprocalInstruction rcp)
    (hs : img.validate 4 = .ok ()) (hp : 0 < img.width) (hdep : img.bitDepth = 16) (hb : FitsDepth 16 img)
    {y x c : ℕ} (hy : y < img.height) (hx : x < img.width) (hc : c < 3)
    (ha : 1 ≤ alphaAt img.buffer (img.strideOf 4) y x)
    (hca : pxD 0 img.buffer (img.strideOf 4) 4 y x c ≤ alphaAt img.buffer (img.strideOf 4) y x)
    (hl : 33000 * alphaAt img.buffer (img.strideOf 4) y x ≤ 65535 * pxD 0 img.buffer (img.strideOf 4) 4 y x c) :
    ∃ out, (alphaX86U16 ⟨true, false⟩ fma rcp).unpremultiply img = some out ∧
      sample out.buffer (img.strideOf 4) 4 y x c = some 32767 := by
  obtain ⟨out, o1, o2, o3, o4⟩ := unpremultiply16_spec (cpu := ⟨true, false⟩) (fma := fma) (rcp := rcp) (Or.inr rfl) hs hp
  refine ⟨out, o1, ?_⟩
  rw [o4 y x c hy hx (by omega), pixelVal, if_pos hc]
  have h1 := pxD_le_depth hb y x c
  have h2 := pxD_le_depth hb y x 3
  norm_num at h1 h2
  unfold alphaAt at *
  unfold u16Col unpremul16Lane
  rw [Nat.mod_eq_of_lt (by omega), Nat.mod_eq_of_lt (by omega), if_neg (by omega), if_neg (by decide), hdep]
  have h := sse_large hr ha h2 hca hl
  have e : (2 ^ 16 - 1 : ℕ) = 65535 := by norm_num
  rw [e, min_eq_right h]
  rfl

/-- Opaque white becomes mid grey. -/
example : ∃ out, (alphaX86U16 ⟨true, false⟩ true (fun n => 1 / n)).unpremultiply (Demo.white16 16) = some out ∧
    sample out.buffer 4 4 0 0 0 = some 32767 :=
  C71_violated (img := Demo.white16 16) exact_reciprocal (by decide) (by decide) rfl (by unfold FitsDepth; decide)
    (y := 0) (x := 0) (c := 0) (by decide) (by decide) (by decide) (by decide) (by decide) (by decide)

/-- **C72, AVX2 without FMA at depths up to 10.** Unpremultiplying an RGBA16 image whose colours do not exceed
alpha gives samples that fit the depth. Missing: everything else (`C72_violated`). -/
theorem C72_fits_depth_partial {sse : Bool} {rcp : ℚ → ℚ} {img : Image ℕ} (hr : ReciprocalInstruction rcp)
    (hs : img.validate 4 = .ok ()) (hp : 0 < img.width) (hdep : img.bitDepth ≤ 10) (hb : FitsDepth img.bitDepth img)
    (hpre : ∀ y x c, y < img.height → x < img.width → c < 3 →
      pxD 0 img.buffer (img.strideOf 4) 4 y x c ≤ alphaAt img.buffer (img.strideOf 4) y x) :
    ∃ out, (alphaX86U16 ⟨sse, true⟩ false rcp).unpremultiply img = some out ∧
      ∀ y x c, y < img.height → x < img.width → c < 4 → ∃ v, sample out.buffer (img.strideOf 4) 4 y x c = some v ∧
        v ≤ 2 ^ img.bitDepth - 1 := by
  obtain ⟨out, o1, o2, o3, o4⟩ := unpremultiply16_spec (cpu := ⟨sse, true⟩) (fma := false) (rcp := rcp) (Or.inl rfl) hs hp
  have hM : 2 ^ img.bitDepth - 1 ≤ 1023 := by
    have : 2 ^ img.bitDepth ≤ 2 ^ 10 := Nat.pow_le_pow_right (by norm_num) hdep
    norm_num at this
    omega
  refine ⟨out, o1, fun y x c hy hx hc => ⟨_, o4 y x c hy hx (by omega), ?_⟩⟩
  have h1 := pxD_le_depth hb y x c
  have h2 := pxD_le_depth hb y x 3
  by_cases hc3 : c < 3
  · rw [pixelVal, if_pos hc3]
    have h3 := hpre y x c hy hx hc3
    unfold alphaAt at *
    unfold u16Col
    rw [Nat.mod_eq_of_lt (by omega), Nat.mod_eq_of_lt (by omega)]
    by_cases h0 : pxD 0 img.buffer (img.strideOf 4) 4 y x 3 = 0
    · unfold unpremul16Lane
      rw [if_pos h0, u16_nat, Nat.mod_eq_of_lt (by omega)]
      exact h1
    · have h := unpremul16_value (avx2 := true) (fma := false) hr (d := img.bitDepth) (by omega) (by simp) (by omega) (by omega) h3
      have he := M_div_le (M := 2 ^ img.bitDepth - 1) (a := pxD 0 img.buffer (img.strideOf 4) 4 y x 3) (by omega) h3
      have hMq : ((2 ^ img.bitDepth - 1 : ℕ) : ℚ) ≤ 1023 := by exact_mod_cast hM
      rw [if_pos ⟨rfl, rfl⟩, abs_le] at h
      have hlt : ((u16 (unpremul16Lane true false rcp img.bitDepth (pxD 0 img.buffer (img.strideOf 4) 4 y x c)
        (pxD 0 img.buffer (img.strideOf 4) 4 y x 3)) : ℕ) : ℚ) < ((2 ^ img.bitDepth - 1 : ℕ) : ℚ) + 1 := by linarith
      have hlt : u16 (unpremul16Lane true false rcp img.bitDepth (pxD 0 img.buffer (img.strideOf 4) 4 y x c)
        (pxD 0 img.buffer (img.strideOf 4) 4 y x 3)) < (2 ^ img.bitDepth - 1) + 1 := by exact_mod_cast hlt
      exact Nat.lt_succ_iff.1 hlt
  · rw [pixelVal, if_neg hc3]
    have e : c = 3 := by omega
    subst e
    exact (Nat.mod_le _ _).trans h2

example : ∃ out, (alphaX86U16 ⟨true, true⟩ false (fun n => 1 / n)).unpremultiply Demo.a10pre = some out := by
  obtain ⟨out, h, _⟩ := C72_fits_depth_partial (sse := true) (rcp := fun n => 1 / n) (img := Demo.a10pre)
    exact_reciprocal (by decide) (by decide) (by decide) (by unfold FitsDepth; decide) Demo.a10pre_pre
  exact ⟨out, h⟩

/-- The correctly rounded reciprocal is within the documented error. -/
theorem rounded_reciprocal : ReciprocalInstruction (fun q => F32.rnd (1 / q)) := by
  intro n h1 h2
  have hn : (1 : ℚ) ≤ n := by exact_mod_cast h1
  have hn' : (n : ℚ) ≤ 65535 := by exact_mod_cast h2
  have hp : (0 : ℚ) < 1 / n := by positivity
  have h := F32.rnd_err_rel (q := 1 / (n : ℚ)) (by
    rw [abs_of_pos hp]
    calc (1 : ℚ) / 2 ^ 126 ≤ 1 / 65535 := by norm_num
      _ ≤ 1 / n := by gcongr)
  rw [abs_of_pos hp] at h
  have e : F32.rnd (1 / (n : ℚ)) * n - 1 = n * (F32.rnd (1 / (n : ℚ)) - 1 / n) := by field_simp
  have h' : |F32.rnd (1 / (n : ℚ)) * n - 1| ≤ n * (1 / n / 2 ^ 24) := by
    rw [e, abs_mul, abs_of_pos (by linarith : (0 : ℚ) < n)]
    gcongr
  refine h'.trans ?_
  have : (n : ℚ) * (1 / n / 2 ^ 24) = 1 / 2 ^ 24 := by field_simp
  rw [this]
  norm_num

/-- **C72 fails with FMA, and with SSE4.1**: with a reciprocal instruction that is as precise as possible,
unpremultiplying an opaque white pixel of value `2^d - 1` gives `2^d`, at every depth up to 15 (14 with SSE4.1). -/
theorem C72_violated {fma : Bool} {cpu : Cpu} {d : ℕ} (h1 : 1 ≤ d)
    (h2 : cpu.avx2 = true ∧ fma = true ∧ d ≤ 15 ∨ cpu.avx2 = false ∧ cpu.sse41 = true ∧ d ≤ 14) :
    ∃ rcp out, ReciprocalInstruction rcp ∧ (alphaX86U16 cpu fma rcp).unpremultiply (Demo.white16 d) = some out ∧
      sample out.buffer 4 4 0 0 0 = some (2 ^ d) := by
  obtain ⟨out, o1, _, _, o4⟩ := unpremultiply16_spec (cpu := cpu) (fma := fma) (rcp := fun q => F32.rnd (1 / q))
    (img := Demo.white16 d) (by tauto) rfl Nat.one_pos
  refine ⟨_, out, rounded_reciprocal, o1, ?_⟩
  refine (o4 0 0 0 Nat.one_pos Nat.one_pos (by decide)).trans ?_
  have key1 : ∀ d ∈ List.range' 1 15,
      u16Col (unpremul16Lane true true (fun q => F32.rnd (1 / q)) d) (2 ^ d - 1) (2 ^ d - 1) = 2 ^ d := by decide +kernel
  have key2 : ∀ fma : Bool, ∀ d ∈ List.range' 1 14,
      u16Col (unpremul16Lane false fma (fun q => F32.rnd (1 / q)) d) (2 ^ d - 1) (2 ^ d - 1) = 2 ^ d := by decide +kernel
  rcases h2 with ⟨ha, hf, hd⟩ | ⟨ha, hs, hd⟩
  · rw [ha, hf]
    exact congrArg some (key1 d (by rw [List.mem_range'_1]; omega))
  · rw [ha]
    exact congrArg some (key2 fma d (by rw [List.mem_range'_1]; omega))

end PicScale
