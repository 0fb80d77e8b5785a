import Verif.Model.NeonAlphaF16
import Verif.Lemmas.NeonAlphaU16
import Verif.Props.AlphaF16

/-!
Property theorems about RGBA f16 alpha handling on aarch64: C241–C244. Samples are patterns of halves, `dec` their
values.
-/

namespace PicScale

open Spec F16

theorem premulWideN_lane (o : HalfOps ℕ ℚ) : LaneBy 8 (premulWideN o) fun c a => o.narrow (F32.mul (o.widen c) (o.widen a)) :=
  fun _ _ => rfl
theorem unpremulWideN_lane (o : HalfOps ℕ ℚ) : LaneBy 8 (unpremulWideN o) fun c a =>
    if a = 0 then 0 else o.narrow (F32.div (o.widen c) (o.widen a)) := fun _ _ => rfl
theorem premulFullN_lane : LaneBy 8 premulFullN fun c a => enc (dec c * dec a) := fun _ _ => rfl
theorem unpremulFullN_lane : LaneBy 8 unpremulFullN fun c a => if dec a = 0 then c else enc (dec c / dec a) := fun _ _ => rfl

/-- The colour function of premultiplication in column `x` of a row of `w` pixels. -/
def premulColN (fp16 : Bool) (c a : ℕ) : ℕ := if fp16 then enc (dec c * dec a) else enc (F32.mul (dec c) (dec a))
/-- Its alpha. -/
def premulAlpN (fp16 : Bool) (w x a : ℕ) : ℕ := if fp16 ∨ x < w / 8 * 8 then a else enc (dec a)
/-- The colour function of unpremultiplication. -/
def unpremulColN (fp16 : Bool) (w x c a : ℕ) : ℕ :=
  if fp16 then (if dec a = 0 then c else enc (dec c / dec a))
  else if x < w / 8 * 8 then (if a = 0 then 0 else enc (F32.div (dec c) (dec a)))
  else enc (if dec a ≠ 0 then F32.mul (dec c) (F32.div 1 (dec a)) else 0)

theorem premulRowFullN_ok : RowOK premulRowFullN (fun c a => enc (dec c * dec a)) (fun a => a) 0 :=
  alphaChunks_ok (by norm_num) (by norm_num) (planes_pixelwise (n := 8) premulFullN_lane).pixelwise
theorem unpremulRowFullN_ok :
    RowInPlaceOK unpremulRowFullN (fun c a => if dec a = 0 then c else enc (dec c / dec a)) (fun a => a) 0 :=
  alphaChunksInPlace_ok (by norm_num) (by norm_num) (planes_pixelwise (n := 8) unpremulFullN_lane).pixelwise

theorem premulRowN_ok (fp16 : Bool) : RowXA (if fp16 then premulRowFullN else premulRowWideN halfBits)
    (fun _ _ => premulColN fp16) (premulAlpN fp16) 0 := by
  cases fp16
  · have h := chunksThen_ok (m := 8) (by norm_num) (d0 := 0) (planes_pixelwise (premulWideN_lane halfBits))
      (rest := alphaRow (premultiplyPixelH halfBits))
      (colR := fun _ _ c a => halfBits.narrow (F32.mul (halfBits.widen c) (halfBits.widen a)))
      (alpR := fun _ _ a => halfBits.narrow (halfBits.widen a))
      (fun w dst src hd hs => alphaRow_spec _ _ 0 hd hs)
    intro w dst src hd hs
    obtain ⟨r, r1, r2, r3⟩ := h w dst src hd hs
    refine ⟨r, r1, r2, fun x c hx hc => ?_⟩
    rw [r3 x c hx hc]
    dsimp only
    unfold premulColN premulAlpN
    congr 2
    · split_ifs <;> first | rfl | contradiction
    · funext a
      by_cases hq : x < w / 8 * 8
      · rw [if_pos hq, if_pos (Or.inr hq)]
      · rw [if_neg hq, if_neg (by simpa using hq)]
        rfl
  · intro w dst src hd hs
    obtain ⟨r, r1, r2, r3⟩ := premulRowFullN_ok w dst src hd hs
    exact ⟨r, r1, r2, fun x c hx hc => (r3 x c hx hc).trans (by
      have e : premulAlpN true w x = fun a => a := by funext a; unfold premulAlpN; rw [if_pos (Or.inl rfl)]
      rw [e]
      rfl)⟩

theorem unpremulRowN_ok (fp16 : Bool) : RowInPlaceXA (if fp16 then unpremulRowFullN else unpremulRowWideN halfBits)
    (unpremulColN fp16) (fun _ _ a => a) 0 := by
  cases fp16
  · have h := chunksThenInPlace_ok (m := 8) (by norm_num) (d0 := 0) (planes_pixelwise (unpremulWideN_lane halfBits))
      (rest := alphaRowInPlace (unpremultiplyPixelH halfBits))
      (colR := fun _ _ c a => halfBits.narrow
        (if halfBits.widen a ≠ 0 then F32.mul (halfBits.widen c) (F32.div 1 (halfBits.widen a)) else 0))
      (alpR := fun _ _ a => a)
      (fun w l hl => alphaRowInPlace_spec _ _ 0 hl)
    intro w l hl
    obtain ⟨r, r1, r2, r3⟩ := h w l hl
    refine ⟨r, r1, r2, fun x c hx hc => ?_⟩
    rw [r3 x c hx hc]
    dsimp only
    congr 2
    · funext c a
      unfold unpremulColN
      simp only [Bool.false_eq_true, if_false]
      by_cases hq : x < w / 8 * 8
      · rw [if_pos hq, if_pos hq]; rfl
      · rw [if_neg hq, if_neg hq]; rfl
    · split_ifs <;> rfl
  · intro w l hl
    obtain ⟨r, r1, r2, r3⟩ := unpremulRowFullN_ok w l hl
    exact ⟨r, r1, r2, fun x c hx hc => (r3 x c hx hc).trans rfl⟩

theorem premultiplyN_spec (fp16 : Bool) {src dst : Image ℕ}
    (hs : src.validate 4 = .ok ()) (hd : dst.validate 4 = .ok ())
    (hw : src.width = dst.width) (hh : src.height = dst.height) (hp : 0 < dst.width) :
    ∃ out, (alphaNeonF16 fp16 halfBits).premultiply src dst = some out ∧ SameShape out dst ∧ PaddingKept 4 dst out ∧
      ∀ y x c, y < dst.height → x < dst.width → c < 4 → sample out.buffer (dst.strideOf 4) 4 y x c =
        some (pixelVal (premulColN fp16) (premulAlpN fp16 dst.width x) (fun c => pxD 0 src.buffer (src.strideOf 4) 4 y x c) c) :=
  premultiplyImageWith_spec_x (premulRowN_ok fp16) hs hd hw hh hp

theorem unpremultiplyN_spec (fp16 : Bool) {img : Image ℕ} (hs : img.validate 4 = .ok ()) (hp : 0 < img.width) :
    ∃ out, (alphaNeonF16 fp16 halfBits).unpremultiply img = some out ∧ SameShape out img ∧ PaddingKept 4 img out ∧
      ∀ y x c, y < img.height → x < img.width → c < 4 → sample out.buffer (img.strideOf 4) 4 y x c =
        some (pixelVal (unpremulColN fp16 img.width x) (fun a => a) (fun c => pxD 0 img.buffer (img.strideOf 4) 4 y x c) c) :=
  unpremultiplyImageWith_spec_xa (unpremulRowN_ok fp16) hs hp

theorem premulColN_finite (fp16 : Bool) {c a : ℕ} (hc : FiniteHalf c) (ha : FiniteHalf a) :
    premulColN fp16 c a = enc (dec c * dec a) := by
  unfold premulColN
  split_ifs
  · rfl
  · show enc (F32.rnd (dec c * dec a)) = _
    rw [mul_halves hc ha]

/-! ### C241 -/

/-- **C241.** On aarch64, with and without half arithmetic, premultiplying an RGBA f16 image of finite samples into an
image of the same size gives for every colour the half of the exact product with alpha, rounded once (to nearest,
infinity on overflow), keeps every alpha exactly (without half arithmetic, except perhaps a minus zero) and leaves row
padding alone. -/
theorem C241_premultiply_neon_f16 (fp16 : Bool) {src dst : Image ℕ}
    (hs : src.validate 4 = .ok ()) (hd : dst.validate 4 = .ok ())
    (hw : src.width = dst.width) (hh : src.height = dst.height) (hp : 0 < dst.width)
    (hfin : ∀ v ∈ src.buffer, FiniteHalf v) :
    ∃ out, (alphaNeonF16 fp16 halfBits).premultiply src dst = some out ∧ SameShape out dst ∧ PaddingKept 4 dst out ∧
      ∀ y x, y < dst.height → x < dst.width →
        (∀ c, c < 3 → ∃ v, sample out.buffer (dst.strideOf 4) 4 y x c = some v ∧
          RoundsTo (dec (pxD 0 src.buffer (src.strideOf 4) 4 y x c) * dec (pxD 0 src.buffer (src.strideOf 4) 4 y x 3)) v) ∧
        (fp16 = true ∨ pxD 0 src.buffer (src.strideOf 4) 4 y x 3 ≠ 0x8000 →
          sample out.buffer (dst.strideOf 4) 4 y x 3 = some (pxD 0 src.buffer (src.strideOf 4) 4 y x 3)) := by
  obtain ⟨out, o1, o2, o3, o4⟩ := premultiplyN_spec fp16 hs hd hw hh hp
  refine ⟨out, o1, o2, o3, fun y x hy hx => ⟨fun c hc => ⟨_, o4 y x c hy hx (by omega), ?_⟩, fun hz => ?_⟩⟩
  · rw [pixelVal, if_pos hc, premulColN_finite fp16 (pxD_finite hfin _ _ _ _ _) (pxD_finite hfin _ _ _ _ _)]
    exact roundsTo_enc _
  · have hA := pxD_finite hfin (src.strideOf 4) 4 y x 3
    rw [o4 y x 3 hy hx (by omega), pixelVal, if_neg (by omega)]
    refine congrArg some ?_
    unfold premulAlpN
    split_ifs with hq
    · rfl
    · rcases hz with hz | hz
      · exact absurd (Or.inl hz) hq
      · exact enc_dec hA hz

/-- Nine pixels of alpha 3/2, a block and one more, with and without half arithmetic: -2 becomes -3. -/
example (fp16 : Bool) : ∃ out, (alphaNeonF16 fp16 halfBits).premultiply (Demo.flatH 9 0x3E00) (Demo.flatH 9 0x3E00) = some out ∧
    (∀ x, x < 9 → ∃ v, sample out.buffer 38 4 0 x 1 = some v ∧ |dec v + 3| ≤ 0) ∧ sample out.buffer 38 4 0 8 3 = some 0x3E00 := by
  obtain ⟨out, o1, _, _, o4⟩ := C241_premultiply_neon_f16 fp16 (src := Demo.flatH 9 0x3E00)
    (dst := Demo.flatH 9 0x3E00) (by decide +kernel) (by decide +kernel) rfl rfl (by decide) Demo.flatH_finite
  have key : ∀ x < 9, dec (pxD 0 (Demo.flatH 9 0x3E00).buffer ((Demo.flatH 9 0x3E00).strideOf 4) 4 0 x 1) *
      dec (pxD 0 (Demo.flatH 9 0x3E00).buffer ((Demo.flatH 9 0x3E00).strideOf 4) 4 0 x 3) = -3 := by decide +kernel
  refine ⟨out, o1, fun x hx => ?_, ((o4 0 8 (by decide) (by decide)).2 (Or.inr (by decide +kernel))).trans (by decide +kernel)⟩
  obtain ⟨v, v1, v2, _⟩ := (o4 0 x (by decide) hx).1 1 (by decide)
  rw [key x hx] at v2
  refine ⟨v, v1, ?_⟩
  have := (v2 (by norm_num)).2 0xC200 (by norm_num)
  have e : dec 0xC200 = -3 := by decide +kernel
  rw [e, sub_self, abs_zero, sub_neg_eq_add] at this
  exact this

/-! ### C242 -/

/-- **C242.** On aarch64, with and without half arithmetic and whatever the samples (also infinities and NaN),
unpremultiplying an RGBA f16 image returns normally, accesses nothing outside the buffer, keeps the bits of every alpha
and all row padding. -/
theorem C242_unpremultiply_neon_f16_frame (fp16 : Bool) {img : Image ℕ} (hs : img.validate 4 = .ok ()) (hp : 0 < img.width) :
    ∃ out, (alphaNeonF16 fp16 halfBits).unpremultiply img = some out ∧ SameShape out img ∧ PaddingKept 4 img out ∧
      ∀ y x, y < img.height → x < img.width →
        sample out.buffer (img.strideOf 4) 4 y x 3 = some (pxD 0 img.buffer (img.strideOf 4) 4 y x 3) := by
  obtain ⟨out, o1, o2, o3, o4⟩ := unpremultiplyN_spec fp16 hs hp
  refine ⟨out, o1, o2, o3, fun y x hy hx => ?_⟩
  rw [o4 y x 3 hy hx (by omega), pixelVal, if_neg (by omega)]

example (fp16 : Bool) : ∃ out, (alphaNeonF16 fp16 halfBits).unpremultiply (Demo.flatH 17 0x7C00) = some out ∧
    sample out.buffer 70 4 0 3 3 = some 0x7C00 ∧ sample out.buffer 70 4 0 16 3 = some 0x7C00 := by
  obtain ⟨out, o1, _, _, o4⟩ := C242_unpremultiply_neon_f16_frame fp16 (img := Demo.flatH 17 0x7C00) (by decide +kernel) (by decide)
  exact ⟨out, o1, (o4 0 3 (by decide) (by decide)).trans (by decide +kernel), (o4 0 16 (by decide) (by decide)).trans (by decide +kernel)⟩

/-! ### C243 -/

/-- Dividing a half by a half in binary32 and rounding to a half. -/
theorem div_half {c a : ℕ} (h0 : dec a ≠ 0) (hq : |dec c / dec a| ≤ 65500) :
    FiniteHalf (enc (F32.div (dec c) (dec a))) ∧
    |dec (enc (F32.div (dec c) (dec a))) - dec c / dec a| ≤ |dec c / dec a| / 2000 + 1 / 2 ^ 24 := by
  rw [F32.div_eq h0]
  have hr := F32.rnd_err_le (dec c / dec a)
  generalize dec c / dec a = t at *
  generalize F32.rnd t = s at *
  have ht := abs_nonneg t
  have hs : |s| ≤ |t| + (|t| / 2 ^ 24 + 1 / 2 ^ 150) := by
    have := abs_add_le (s - t) t
    rw [sub_add_cancel] at this
    linarith
  have hlt : |s| < 65520 := by
    have : |t| / 2 ^ 24 ≤ 1 := by rw [div_le_one (by positivity)]; linarith
    have : (1 : ℚ) / 2 ^ 150 ≤ 1 := by norm_num
    linarith
  obtain ⟨e1, e2, e3⟩ := enc_near hlt
  refine ⟨⟨e2, e1⟩, ?_⟩
  have h5 := abs_add_le (dec (enc s) - s) (s - t)
  rw [sub_add_sub_cancel] at h5
  have h6 : |s| / 2 ^ 11 ≤ (|t| + (|t| / 2 ^ 24 + 1 / 2 ^ 150)) / 2 ^ 11 := by gcongr
  refine le_trans h5 (le_trans (add_le_add e3 hr) ?_)
  refine le_trans (add_le_add (add_le_add h6 le_rfl) le_rfl) ?_
  have k1 : (|t| + (|t| / 2 ^ 24 + 1 / 2 ^ 150)) / 2 ^ 11 + 1 / 2 ^ 25 + (|t| / 2 ^ 24 + 1 / 2 ^ 150) =
      |t| * (1 / 2 ^ 11 + 1 / 2 ^ 35 + 1 / 2 ^ 24) + (1 / 2 ^ 161 + 1 / 2 ^ 25 + 1 / 2 ^ 150) := by ring
  rw [k1]
  have k2 : |t| * (1 / 2 ^ 11 + 1 / 2 ^ 35 + 1 / 2 ^ 24) ≤ |t| * (1 / 2000) := by
    apply mul_le_mul_of_nonneg_left _ ht
    norm_num
  have k3 : (1 : ℚ) / 2 ^ 161 + 1 / 2 ^ 25 + 1 / 2 ^ 150 ≤ 1 / 2 ^ 24 := by norm_num
  linarith

/-- The colour a pixel of colour `c` and alpha `a` gets. -/
theorem unpremulColN_val (fp16 : Bool) (w x : ℕ) {c a : ℕ} (ha : FiniteHalf a) :
    (a = 0 → unpremulColN fp16 w x c a = if fp16 then c else 0) ∧
    (dec a ≠ 0 → |dec c / dec a| ≤ 65500 → FiniteHalf (unpremulColN fp16 w x c a) ∧
      |dec (unpremulColN fp16 w x c a) - dec c / dec a| ≤ |dec c / dec a| / 2000 + 1 / 2 ^ 24) ∧
    (fp16 = true → dec a ≠ 0 → RoundsTo (dec c / dec a) (unpremulColN fp16 w x c a)) := by
  have ez : enc 0 = 0 := by decide +kernel
  refine ⟨?_, fun h0 hq => ?_, ?_⟩
  · rintro rfl
    unfold unpremulColN
    rw [if_pos dec_zero, if_pos rfl, if_neg (show ¬ (dec 0 ≠ 0) from fun h => h dec_zero), ez]
    split_ifs <;> rfl
  · unfold unpremulColN
    have hne : a ≠ 0 := by rintro rfl; exact h0 dec_zero
    rw [if_neg h0, if_pos h0, if_neg hne]
    split_ifs with h1 h2
    · have hlt : |dec c / dec a| < 65520 := by linarith
      obtain ⟨e1, e2, e3⟩ := enc_near hlt
      refine ⟨⟨e2, e1⟩, e3.trans ?_⟩
      have : |dec c / dec a| / 2 ^ 11 ≤ |dec c / dec a| / 2000 := by gcongr; norm_num
      have : (1 : ℚ) / 2 ^ 25 ≤ 1 / 2 ^ 24 := by norm_num
      linarith
    · exact div_half h0 hq
    · have e : F32.mul (dec c) (F32.div 1 (dec a)) = F32.rnd (dec c * F32.rnd (1 / dec a)) := by
        rw [F32.div_eq h0]; rfl
      rw [e]
      exact quot_half ha h0 hq
  · intro h h0
    unfold unpremulColN
    rw [if_pos h, if_neg h0]
    exact roundsTo_enc _

/-- **C243 (partial).** On aarch64, unpremultiplying an RGBA f16 image of finite samples should give 0 where alpha is 0,
and elsewhere divide every colour by alpha. Proved: the quotients, to within one part in 2000 (plus half the smallest
half) if they are at most 65500 — with half arithmetic each is the half nearest to the quotient —, and the zeros without
half arithmetic (alpha plus zero). Missing: with half arithmetic a pixel of alpha 0 **keeps its colour**
(`C243_violated`); dividing by minus zero without half arithmetic is outside the model. -/
theorem C243_unpremultiply_neon_f16_partial (fp16 : Bool) {img : Image ℕ} (hs : img.validate 4 = .ok ()) (hp : 0 < img.width)
    (hfin : ∀ v ∈ img.buffer, FiniteHalf v) :
    ∃ out, (alphaNeonF16 fp16 halfBits).unpremultiply img = some out ∧
      ∀ y x c, y < img.height → x < img.width → c < 3 →
        let p := pxD 0 img.buffer (img.strideOf 4) 4 y x c
        let a := pxD 0 img.buffer (img.strideOf 4) 4 y x 3
        ∃ v, sample out.buffer (img.strideOf 4) 4 y x c = some v ∧
          (a = 0 → v = if fp16 then p else 0) ∧
          (dec a ≠ 0 → |dec p / dec a| ≤ 65500 →
            FiniteHalf v ∧ |dec v - dec p / dec a| ≤ |dec p / dec a| / 2000 + 1 / 2 ^ 24) ∧
          (fp16 = true → dec a ≠ 0 → RoundsTo (dec p / dec a) v) := by
  obtain ⟨out, o1, o2, o3, o4⟩ := unpremultiplyN_spec fp16 hs hp
  refine ⟨out, o1, fun y x c hy hx hc => ?_⟩
  intro p a
  have h := o4 y x c hy hx (by omega)
  rw [pixelVal, if_pos hc] at h
  exact ⟨_, h, unpremulColN_val fp16 _ _ (pxD_finite hfin _ _ _ _ _)⟩

/-- A block and a remainder: -2 over 3/2 is -4/3. -/
example (fp16 : Bool) : ∃ out, (alphaNeonF16 fp16 halfBits).unpremultiply (Demo.flatH 9 0x3E00) = some out ∧
    ∀ x, x < 9 → ∃ v, sample out.buffer 38 4 0 x 1 = some v ∧ |dec v + 4 / 3| ≤ 1 / 1000 := by
  obtain ⟨out, o1, o2⟩ := C243_unpremultiply_neon_f16_partial fp16 (img := Demo.flatH 9 0x3E00)
    (by decide +kernel) (by decide) Demo.flatH_finite
  refine ⟨out, o1, fun x hx => ?_⟩
  obtain ⟨v, v1, _, v3, _⟩ := o2 0 x 1 (by decide) hx (by decide)
  have k1 : ∀ x < 9, dec (pxD 0 (Demo.flatH 9 0x3E00).buffer ((Demo.flatH 9 0x3E00).strideOf 4) 4 0 x 1) /
      dec (pxD 0 (Demo.flatH 9 0x3E00).buffer ((Demo.flatH 9 0x3E00).strideOf 4) 4 0 x 3) = -(4 / 3) := by decide +kernel
  have k2 : ∀ x < 9, dec (pxD 0 (Demo.flatH 9 0x3E00).buffer ((Demo.flatH 9 0x3E00).strideOf 4) 4 0 x 3) ≠ 0 := by decide +kernel
  refine ⟨v, v1, ?_⟩
  have e : |(-(4 / 3) : ℚ)| = 4 / 3 := by rw [abs_neg, abs_of_pos (by norm_num)]
  rw [k1 x hx, e] at v3
  have := (v3 (k2 x hx) (by norm_num)).2
  rw [sub_neg_eq_add] at this
  exact le_trans this (by norm_num)

/-- **C243 fails on CPUs with half arithmetic**: unpremultiplying pixels of alpha 0 keeps their colours there (-2 stays
-2), while it gives 0 on the others. -/
theorem C243_violated :
    ((alphaNeonF16 true halfBits).unpremultiply (Demo.flatH 9 0)).map
      (fun o => (sample o.buffer 38 4 0 0 1, sample o.buffer 38 4 0 8 1)) = some (some 0xC000, some 0xC000) ∧
    ((alphaNeonF16 false halfBits).unpremultiply (Demo.flatH 9 0)).map
      (fun o => (sample o.buffer 38 4 0 0 1, sample o.buffer 38 4 0 8 1)) = some (some 0, some 0) := by
  decide +kernel

/-! ### C244 -/

/-- **C244.** Premultiplying an RGBA f16 image of finite samples, no alpha a minus zero, gives bit for bit the same
samples on every aarch64 CPU, every x86 CPU with F16C and every one without SSE4.1. -/
theorem C244_premultiply_everywhere_f16 (fp16 : Bool) (cpu : HalfCpu) (hi : vIeee cpu = true) {src dst : Image ℕ}
    (hs : src.validate 4 = .ok ()) (hd : dst.validate 4 = .ok ())
    (hw : src.width = dst.width) (hh : src.height = dst.height) (hp : 0 < dst.width)
    (hfin : ∀ v ∈ src.buffer, FiniteHalf v) (hz : ∀ y x, pxD 0 src.buffer (src.strideOf 4) 4 y x 3 ≠ 0x8000) :
    ∃ out, (alphaNeonF16 fp16 halfBits).premultiply src dst = some out ∧ (alphaF16 cpu halfBits).premultiply src dst = some out := by
  obtain ⟨out, o1, o2, o3, o4⟩ := premultiplyN_spec fp16 hs hd hw hh hp
  obtain ⟨out', p1, p2, p3, p4⟩ := premultiplyH_spec cpu halfBits hs hd hw hh hp
  refine ⟨out, o1, ?_⟩
  rw [p1]
  refine congrArg some (image_ext (N := 4) (into := dst) p2 o2 (p3) (o3) ?_)
  intro y x c hy hx hc
  rw [o4 y x c hy hx hc, p4 y x c hy hx hc]
  have hA := pxD_finite hfin (src.strideOf 4) 4 y x 3
  refine congrArg some ?_
  by_cases h3 : c < 3
  · rw [pixelVal, if_pos h3, pixelVal, if_pos h3, premul_colour cpu hi (pxD_finite hfin _ _ _ _ _) hA,
      premulColN_finite fp16 (pxD_finite hfin _ _ _ _ _) hA]
  · rw [pixelVal, if_neg h3, pixelVal, if_neg h3]
    unfold premulAlpN
    have e := enc_dec hA (hz y x)
    split_ifs
    · exact Nat.mod_eq_of_lt hA.1
    · exact (Nat.mod_eq_of_lt hA.1).trans e.symm
    · exact e
    · rfl

example (fp16 : Bool) : ∃ out, (alphaNeonF16 fp16 halfBits).premultiply (Demo.flatH 9 0x3E00) (Demo.flatH 9 0x3E00) = some out ∧
    (alphaF16 ⟨true, true, true, false, false⟩ halfBits).premultiply (Demo.flatH 9 0x3E00) (Demo.flatH 9 0x3E00) = some out :=
  C244_premultiply_everywhere_f16 fp16 ⟨true, true, true, false, false⟩ rfl (by decide +kernel) (by decide +kernel) rfl rfl
    (by decide) Demo.flatH_finite
    fun _ _ => pxD_all (P := fun v => v ≠ 0x8000) (by decide +kernel) (by decide) _ _ _ _ _

end PicScale
