import Verif.Lemmas.AlphaF16
import Verif.Lemmas.F16Value
import Verif.Props.AlphaX86F32
import Verif.Props.F16Bits

/-!
Property theorems about RGBA f16 alpha handling: C128–C131. Samples are patterns of halves, `dec` their values.
-/

namespace PicScale

open Spec F16

/-! ### lemmas about halves -/

theorem enc_lt (q : ℚ) : enc q < 65536 := by
  unfold enc
  dsimp only
  split_ifs <;> omega

theorem narrowX_lt (b : Bool) (q : ℚ) : halfBits.narrowX b q < 65536 := by
  cases b
  · exact lt_trans (narrowFb_unsigned _) (by norm_num)
  · exact enc_lt q

/-- A half has eleven significant bits. -/
theorem dec_form {h : ℕ} (hf : FiniteHalf h) : ∃ m e : ℤ, dec h = m * (2 : ℚ) ^ e ∧ |m| ≤ 2047 ∧ -24 ≤ e ∧ e ≤ 5 := by
  have hs : ∀ q : ℚ, (∃ m e : ℤ, q = m * (2 : ℚ) ^ e ∧ |m| ≤ 2047 ∧ -24 ≤ e ∧ e ≤ 5) → ∀ s : ℚ, s = 1 ∨ s = -1 →
      ∃ m e : ℤ, s * q = m * (2 : ℚ) ^ e ∧ |m| ≤ 2047 ∧ -24 ≤ e ∧ e ≤ 5 := by
    rintro q ⟨m, e, h1, h2, h3⟩ s (rfl | rfl)
    · exact ⟨m, e, by rw [h1, one_mul], h2, h3⟩
    · exact ⟨-m, e, by rw [h1]; push_cast; ring, by rwa [abs_neg], h3⟩
  have hm : h % 1024 < 1024 := Nat.mod_lt _ (by norm_num)
  have he := hf.2
  unfold dec
  dsimp only
  apply hs
  · split_ifs with h0
    · refine ⟨(h % 1024 : ℕ), -24, by rw [F32.pow2_eq]; push_cast; rfl, ?_, by omega, by omega⟩
      rw [abs_of_nonneg (by omega)]
      omega
    · refine ⟨1024 + (h % 1024 : ℕ), ((h / 1024 % 32 : ℕ) : ℤ) - 25, by rw [F32.pow2_eq]; push_cast; rfl, ?_, by omega, by omega⟩
      rw [abs_of_nonneg (by omega)]
      omega
  · split_ifs
    · exact Or.inr rfl
    · exact Or.inl rfl

/-- The product of two halves is a binary32 number. -/
theorem mul_halves {c a : ℕ} (hc : FiniteHalf c) (ha : FiniteHalf a) : F32.rnd (dec c * dec a) = dec c * dec a := by
  obtain ⟨m, e, h1, h2, h3, _⟩ := dec_form hc
  obtain ⟨m', e', h1', h2', h3', _⟩ := dec_form ha
  apply F32.Rep.rnd
  refine ⟨m * m', e + e', ?_, ?_, by omega⟩
  · rw [h1, h1', zpow_add₀ (by norm_num)]
    push_cast
    ring
  · rw [abs_mul]
    calc |m| * |m'| ≤ 2047 * 2047 := by gcongr
      _ ≤ 2 ^ 24 := by norm_num

theorem dec_abs_lt {h : ℕ} (hf : FiniteHalf h) : |dec h| < 65520 := by
  obtain ⟨m, e, h1, h2, _, h4⟩ := dec_form hf
  rw [h1, abs_mul, abs_of_pos (by positivity : (0 : ℚ) < 2 ^ e)]
  have : (2 : ℚ) ^ e ≤ 2 ^ (5 : ℤ) := zpow_le_zpow_right₀ (by norm_num) h4
  have h5 : |(m : ℚ)| ≤ 2047 := by exact_mod_cast h2
  calc |(m : ℚ)| * 2 ^ e ≤ 2047 * 2 ^ (5 : ℤ) := by gcongr
    _ < 65520 := by norm_num

theorem dec_injective {a b : ℕ} (ha : a < 32768) (hb : b < 32768) (h : dec a = dec b) : a = b := by
  by_contra hne
  rcases Nat.lt_or_gt_of_ne hne with hc | hc
  · have := lt_of_lt_of_le (dec_succ_lt (h := a) (by omega)) (dec_mono (a := a + 1) (b := b) hc hb)
    linarith
  · have := lt_of_lt_of_le (dec_succ_lt (h := b) (by omega)) (dec_mono (a := b + 1) (b := a) hc ha)
    linarith

/-- Narrowing a half gives it back (the pattern of minus zero becomes zero: the model forgets the sign of zero). -/
theorem enc_dec {h : ℕ} (hf : FiniteHalf h) (hz : h ≠ 0x8000) : enc (dec h) = h := by
  have hlt := dec_abs_lt hf
  have h0 := enc_nearest hlt hf.1
  rw [sub_self, abs_zero] at h0
  have hd : dec (enc (dec h)) = dec h := by
    have := abs_nonpos_iff.1 h0
    linarith
  obtain ⟨m, m1, _, m3, _⟩ := enc_cases hlt
  have hp : ∀ k, k < 32768 → 0 ≤ dec k := fun k hk => dec_nonneg hk
  rcases Nat.lt_or_ge h 32768 with hh | hh
  · rcases m3 with ⟨e, _⟩ | ⟨_, e⟩
    · rw [e] at hd ⊢
      exact dec_injective (by omega) hh hd
    · linarith [hp h hh]
  · obtain ⟨k, rfl⟩ : ∃ k, h = 32768 + k := ⟨h - 32768, by omega⟩
    have hk : k < 32768 := by have := hf.1; omega
    have hk0 : 0 < k := by omega
    have hkp : 0 < dec k := by
      have h1 := dec_succ_lt (h := 0) (by norm_num)
      have h2 : dec (0 + 1) ≤ dec k := dec_mono hk0 hk
      rw [dec_zero] at h1
      linarith
    rw [dec_neg hk] at hd m3 ⊢
    rcases m3 with ⟨e, _⟩ | ⟨e, _⟩
    · rw [e] at hd
      linarith [hp m (by omega)]
    · rw [e] at hd ⊢
      rw [dec_neg (by omega)] at hd
      have := dec_injective (a := m) (b := k) (by omega) hk (by linarith)
      omega

/-! ### the images -/

/-- The result of premultiplication, for any conversions: columns in full chunks with the vector conversions, the
others with the IEEE ones. -/
theorem premultiplyH_spec (cpu : HalfCpu) (o : HalfOps ℕ ℚ) {src dst : Image ℕ}
    (hs : src.validate 4 = .ok ()) (hd : dst.validate 4 = .ok ())
    (hw : src.width = dst.width) (hh : src.height = dst.height) (hp : 0 < dst.width) :
    ∃ out, (alphaF16 cpu o).premultiply src dst = some out ∧ SameShape out dst ∧ PaddingKept 4 dst out ∧
      ∀ y x c, y < dst.height → x < dst.width → c < 4 → sample out.buffer (dst.strideOf 4) 4 y x c =
        some (pixelVal
          (if x < vectorPixelsH cpu dst.width then u16Col fun c a => (o.narrowX cpu.f16c (F32.rnd (o.widenX cpu.f16c c * o.widenX cpu.f16c a)) : ℤ)
            else fun c a => o.narrow (F32.rnd (o.widen c * o.widen a)))
          (if x < vectorPixelsH cpu dst.width then fun a => a % 65536 else fun a => o.narrow (o.widen a))
          (fun c => pxD 0 src.buffer (src.strideOf 4) 4 y x c) c) := by
  unfold alphaF16
  dsimp only
  by_cases h1 : (cpu.avx2 && cpu.f16c) = true
  · rw [if_pos h1]
    have hf : cpu.f16c = true := (Bool.and_eq_true_iff.1 h1).2
    have e1 : o.narrowX cpu.f16c = o.narrow := by funext; unfold HalfOps.narrowX; rw [if_pos hf]
    have e2 : o.widenX cpu.f16c = o.widen := by funext; unfold HalfOps.widenX; rw [if_pos hf]
    obtain ⟨out, o1, o2, o3, o4⟩ := premultiplyImageWith_spec_x (premulRowH_ok o (P := 64) (by norm_num) (by norm_num)
      (avxChunk16_pixelwise (laneHalves_lane o.widen o.narrow mulps_laneWise))) hs hd hw hh hp
    refine ⟨out, o1, o2, o3, fun y x c hy hx hc => ?_⟩
    rw [o4 y x c hy hx hc, e1, e2]
    have e : InChunk 64 dst.width x ↔ x < vectorPixelsH cpu dst.width := by
      unfold vectorPixelsH
      rw [if_pos h1]
      exact inChunk_64 _ _
    simp only [e]
    rfl
  · rw [if_neg h1]
    by_cases h2 : cpu.sse41 = true
    · rw [if_pos h2]
      obtain ⟨out, o1, o2, o3, o4⟩ := premultiplyImageWith_spec_x (premulRowH_ok o (P := 32) (by norm_num) (by norm_num)
        (sseChunk16_pixelwise (laneHalves_lane (o.widenX cpu.f16c) (o.narrowX cpu.f16c) mulps_laneWise))) hs hd hw hh hp
      refine ⟨out, o1, o2, o3, fun y x c hy hx hc => ?_⟩
      rw [o4 y x c hy hx hc]
      have e : InChunk 32 dst.width x ↔ x < vectorPixelsH cpu dst.width := by
        unfold vectorPixelsH
        rw [if_neg h1, if_pos h2]
        exact inChunk_32 _ _
      simp only [e]
      rfl
    · rw [if_neg h2]
      obtain ⟨out, o1, o2, o3, o4⟩ := premultiplyImage_spec (fun c a => o.narrow (F32.mul (o.widen c) (o.widen a)))
        (fun a => o.narrow (o.widen a)) 0 hs hd hw hh hp
      refine ⟨out, o1, o2, o3, fun y x c hy hx hc => ?_⟩
      rw [o4 y x c hy hx hc]
      have e : x < vectorPixelsH cpu dst.width ↔ False := by
        unfold vectorPixelsH
        rw [if_neg h1, if_neg h2]
        simp
      simp only [e, if_false]
      rfl

/-- The same for the other direction. -/
theorem unpremultiplyH_spec (cpu : HalfCpu) (o : HalfOps ℕ ℚ) {img : Image ℕ} (hs : img.validate 4 = .ok ()) (hp : 0 < img.width) :
    ∃ out, (alphaF16 cpu o).unpremultiply img = some out ∧ SameShape out img ∧ PaddingKept 4 img out ∧
      ∀ y x c, y < img.height → x < img.width → c < 4 → sample out.buffer (img.strideOf 4) 4 y x c =
        some (pixelVal
          (if x < vectorPixelsH cpu img.width then u16Col fun c a => (o.narrowX cpu.f16c
              (if o.widenX cpu.f16c a = 0 then 0 else F32.rnd (o.widenX cpu.f16c c * o.widenX cpu.f16c a)) : ℤ)
            else fun c a => o.narrow (if o.widen a ≠ 0 then F32.rnd (o.widen c * F32.rnd (1 / o.widen a)) else 0))
          (if x < vectorPixelsH cpu img.width then fun a => a % 65536 else fun a => a)
          (fun c => pxD 0 img.buffer (img.strideOf 4) 4 y x c) c) := by
  have ed : (fun c a => o.narrow (if o.widen a ≠ 0 then F32.mul (o.widen c) (F32.div 1 (o.widen a)) else 0)) =
      fun c a => o.narrow (if o.widen a ≠ 0 then F32.rnd (o.widen c * F32.rnd (1 / o.widen a)) else 0) := by
    funext c a
    split_ifs with h
    · rw [F32.div_eq h, F32.mul]
    · rfl
  unfold alphaF16
  dsimp only
  by_cases h1 : (cpu.avx2 && cpu.f16c) = true
  · rw [if_pos h1]
    have hf : cpu.f16c = true := (Bool.and_eq_true_iff.1 h1).2
    have e1 : o.narrowX cpu.f16c = o.narrow := by funext; unfold HalfOps.narrowX; rw [if_pos hf]
    have e2 : o.widenX cpu.f16c = o.widen := by funext; unfold HalfOps.widenX; rw [if_pos hf]
    obtain ⟨out, o1, o2, o3, o4⟩ := unpremultiplyImageWith_spec_xa (unpremulRowH_ok o (P := 64) (by norm_num) (by norm_num)
      (avxChunk16_pixelwise (laneHalves_lane o.widen o.narrow unpremulLanesH_laneWise))) hs hp
    refine ⟨out, o1, o2, o3, fun y x c hy hx hc => ?_⟩
    rw [o4 y x c hy hx hc, e1, e2]
    have e : InChunk 64 img.width x ↔ x < vectorPixelsH cpu img.width := by
      unfold vectorPixelsH
      rw [if_pos h1]
      exact inChunk_64 _ _
    simp only [e, ed]
  · rw [if_neg h1]
    by_cases h2 : cpu.sse41 = true
    · rw [if_pos h2]
      obtain ⟨out, o1, o2, o3, o4⟩ := unpremultiplyImageWith_spec_xa (unpremulRowH_ok o (P := 32) (by norm_num) (by norm_num)
        (sseChunk16_pixelwise (laneHalves_lane (o.widenX cpu.f16c) (o.narrowX cpu.f16c) unpremulLanesH_laneWise))) hs hp
      refine ⟨out, o1, o2, o3, fun y x c hy hx hc => ?_⟩
      rw [o4 y x c hy hx hc]
      have e : InChunk 32 img.width x ↔ x < vectorPixelsH cpu img.width := by
        unfold vectorPixelsH
        rw [if_neg h1, if_pos h2]
        exact inChunk_32 _ _
      simp only [e, ed]
    · rw [if_neg h2]
      obtain ⟨out, o1, o2, o3, o4⟩ := unpremultiplyImage_spec
        (fun c a => o.narrow (if o.widen a ≠ 0 then F32.mul (o.widen c) (F32.div 1 (o.widen a)) else 0)) (fun a => a) 0 hs hp
      refine ⟨out, o1, o2, o3, fun y x c hy hx hc => ?_⟩
      rw [o4 y x c hy hx hc]
      have e : x < vectorPixelsH cpu img.width ↔ False := by
        unfold vectorPixelsH
        rw [if_neg h1, if_neg h2]
        simp
      simp only [e, if_false, ed]

/-! ### C128: premultiplication -/

/-- `v` is the half for the number `q`: the nearest one, or the infinity of its sign. -/
def RoundsTo (q : ℚ) (v : ℕ) : Prop :=
  (|q| < 65520 → FiniteHalf v ∧ ∀ h, h < 0x10000 → |dec v - q| ≤ |dec h - q|) ∧
    (65520 ≤ q → v = 0x7C00) ∧ (q ≤ -65520 → v = 0xFC00)

theorem roundsTo_enc (q : ℚ) : RoundsTo q (enc q) := by
  obtain ⟨h1, h2, h3⟩ := C127_narrow_ieee_partial q
  exact ⟨fun h => ⟨(h3 h).1, (h3 h).2.2.2⟩, h1, h2⟩

/-- The colours of a premultiplied pixel. -/
theorem premul_colour (cpu : HalfCpu) (hi : vIeee cpu = true) {c a w x : ℕ} (hc : FiniteHalf c) (ha : FiniteHalf a) :
    (if x < vectorPixelsH cpu w then u16Col fun c a => (halfBits.narrowX cpu.f16c (F32.rnd (halfBits.widenX cpu.f16c c * halfBits.widenX cpu.f16c a)) : ℤ)
      else fun c a => halfBits.narrow (F32.rnd (halfBits.widen c * halfBits.widen a))) c a = enc (dec c * dec a) := by
  split_ifs with hx
  · have hf : cpu.f16c = true := by
      unfold vIeee at hi
      by_contra hne
      rw [Bool.not_eq_true] at hne
      rw [hne] at hi
      have hs : cpu.sse41 = false := by simpa using hi
      unfold vectorPixelsH at hx
      rw [hne, hs] at hx
      simp at hx
    unfold u16Col
    dsimp only
    rw [Nat.mod_eq_of_lt hc.1, Nat.mod_eq_of_lt ha.1, widenX_finite _ hc, widenX_finite _ ha, mul_halves hc ha, u16_nat,
      Nat.mod_eq_of_lt (narrowX_lt _ _), hf]
    rfl
  · show enc (F32.rnd (dec c * dec a)) = _
    rw [mul_halves hc ha]

/-- **C128.** On every CPU with F16C and every one without SSE4.1, premultiplying an RGBA f16 image of finite samples
into an image of the same size gives for every colour the half of the exact product with alpha, rounded once (to
nearest, infinity on overflow), keeps every alpha exactly (except perhaps a minus zero) and leaves row padding alone. -/
theorem C128_premultiply_f16 (cpu : HalfCpu) (hi : vIeee cpu = true) {src dst : Image ℕ}
    (hs : src.validate 4 = .ok ()) (hd : dst.validate 4 = .ok ())
    (hw : src.width = dst.width) (hh : src.height = dst.height) (hp : 0 < dst.width)
    (hfin : ∀ v ∈ src.buffer, FiniteHalf v) :
    ∃ out, (alphaF16 cpu halfBits).premultiply src dst = some out ∧ SameShape out dst ∧ PaddingKept 4 dst out ∧
      ∀ y x, y < dst.height → x < dst.width →
        (∀ c, c < 3 → ∃ v, sample out.buffer (dst.strideOf 4) 4 y x c = some v ∧
          RoundsTo (dec (pxD 0 src.buffer (src.strideOf 4) 4 y x c) * dec (pxD 0 src.buffer (src.strideOf 4) 4 y x 3)) v) ∧
        (pxD 0 src.buffer (src.strideOf 4) 4 y x 3 ≠ 0x8000 →
          sample out.buffer (dst.strideOf 4) 4 y x 3 = some (pxD 0 src.buffer (src.strideOf 4) 4 y x 3)) := by
  obtain ⟨out, o1, o2, o3, o4⟩ := premultiplyH_spec cpu halfBits hs hd hw hh hp
  refine ⟨out, o1, o2, o3, fun y x hy hx => ⟨fun c hc => ⟨_, o4 y x c hy hx (by omega), ?_⟩, fun hz => ?_⟩⟩
  · rw [pixelVal, if_pos hc, premul_colour cpu hi (pxD_finite hfin _ _ _ _ _) (pxD_finite hfin _ _ _ _ _)]
    exact roundsTo_enc _
  · have hA := pxD_finite hfin (src.strideOf 4) 4 y x 3
    rw [o4 y x 3 hy hx (by omega), pixelVal, if_neg (by omega)]
    refine congrArg some ?_
    split_ifs
    · exact Nat.mod_eq_of_lt hA.1
    · exact enc_dec hA hz

namespace Demo
/-- A row of `w` pixels: colours 1/2, -2 and 65504, alpha `a`; two samples of padding. -/
def flatH (w a : ℕ) : Image ℕ :=
  { buffer := (List.replicate w [0x3800, 0xC000, 0x7BFF, a]).flatten ++ [7, 7], channels := 4, width := w, height := 1,
    stride := w * 4 + 2, bitDepth := 0 }
theorem flatH_finite : ∀ v ∈ (flatH 9 0x3E00).buffer, FiniteHalf v := by
  unfold FiniteHalf
  decide +kernel
end Demo

/-- Nine pixels of alpha 3/2 on a CPU with SSE4.1 and F16C: one chunk and one more; 1/2 becomes 3/4, -2 becomes -3. -/
example : ∃ out, (alphaF16 ⟨true, false, true, false, false⟩ halfBits).premultiply (Demo.flatH 9 0x3E00) (Demo.flatH 9 0x3E00) = some out ∧
    (∀ x, x < 9 → ∃ v, sample out.buffer 38 4 0 x 1 = some v ∧ |dec v + 3| ≤ 0) ∧ sample out.buffer 38 4 0 8 3 = some 0x3E00 := by
  obtain ⟨out, o1, _, _, o4⟩ := C128_premultiply_f16 ⟨true, false, true, false, false⟩ rfl (src := Demo.flatH 9 0x3E00)
    (dst := Demo.flatH 9 0x3E00) (by decide +kernel) (by decide +kernel) rfl rfl (by decide) Demo.flatH_finite
  have key : ∀ x < 9, dec (pxD 0 (Demo.flatH 9 0x3E00).buffer ((Demo.flatH 9 0x3E00).strideOf 4) 4 0 x 1) *
      dec (pxD 0 (Demo.flatH 9 0x3E00).buffer ((Demo.flatH 9 0x3E00).strideOf 4) 4 0 x 3) = -3 := by decide +kernel
  refine ⟨out, o1, fun x hx => ?_, ((o4 0 8 (by decide) (by decide)).2 (by decide +kernel)).trans (by decide +kernel)⟩
  obtain ⟨v, v1, v2, _⟩ := (o4 0 x (by decide) hx).1 1 (by decide)
  rw [key x hx] at v2
  refine ⟨v, v1, ?_⟩
  have := (v2 (by norm_num)).2 0xC200 (by norm_num)
  have e : dec 0xC200 = -3 := by decide +kernel
  rw [e, sub_self, abs_zero, sub_neg_eq_add] at this
  exact this

/-! ### C129: premultiplication without F16C -/

/-- **C129 (partial).** On a CPU with SSE4.1 and no F16C the same should hold. Proved: for products from 0 up to (not
including) 65520, and for the pixels after the last full block of eight; alpha is kept and row padding left alone.
Missing: negative products in full blocks, which lose their sign (`C129_violated`), and overflow (a NaN, C127). -/
theorem C129_premultiply_sse_partial (cpu : HalfCpu) {src dst : Image ℕ}
    (hs : src.validate 4 = .ok ()) (hd : dst.validate 4 = .ok ())
    (hw : src.width = dst.width) (hh : src.height = dst.height) (hp : 0 < dst.width)
    (hfin : ∀ v ∈ src.buffer, FiniteHalf v) :
    ∃ out, (alphaF16 cpu halfBits).premultiply src dst = some out ∧ SameShape out dst ∧ PaddingKept 4 dst out ∧
      ∀ y x, y < dst.height → x < dst.width →
        (∀ c, c < 3 → ∃ v, sample out.buffer (dst.strideOf 4) 4 y x c = some v ∧
          let q := dec (pxD 0 src.buffer (src.strideOf 4) 4 y x c) * dec (pxD 0 src.buffer (src.strideOf 4) 4 y x 3)
          (0 ≤ q ∧ q < 65520 ∨ dst.width / 8 * 8 ≤ x → RoundsTo q v)) ∧
        (pxD 0 src.buffer (src.strideOf 4) 4 y x 3 ≠ 0x8000 →
          sample out.buffer (dst.strideOf 4) 4 y x 3 = some (pxD 0 src.buffer (src.strideOf 4) 4 y x 3)) := by
  by_cases hi : vIeee cpu = true
  · obtain ⟨out, o1, o2, o3, o4⟩ := C128_premultiply_f16 cpu hi hs hd hw hh hp hfin
    refine ⟨out, o1, o2, o3, fun y x hy hx => ⟨fun c hc => ?_, (o4 y x hy hx).2⟩⟩
    obtain ⟨v, v1, v2⟩ := (o4 y x hy hx).1 c hc
    exact ⟨v, v1, fun _ => v2⟩
  have hf : cpu.f16c = false := by
    unfold vIeee at hi
    by_contra h
    rw [Bool.not_eq_false] at h
    rw [h] at hi
    exact hi rfl
  have hsse : cpu.sse41 = true := by
    unfold vIeee at hi
    by_contra h
    rw [Bool.not_eq_true] at h
    rw [h] at hi
    simp at hi
  have hvp : vectorPixelsH cpu dst.width = dst.width / 8 * 8 := by
    unfold vectorPixelsH
    rw [hf, hsse]
    simp
  obtain ⟨out, o1, o2, o3, o4⟩ := premultiplyH_spec cpu halfBits hs hd hw hh hp
  refine ⟨out, o1, o2, o3, fun y x hy hx => ⟨fun c hc => ⟨_, o4 y x c hy hx (by omega), ?_⟩, fun hz => ?_⟩⟩
  · have hC := pxD_finite hfin (src.strideOf 4) 4 y x c
    have hA := pxD_finite hfin (src.strideOf 4) 4 y x 3
    intro q hq
    rw [pixelVal, if_pos hc, hvp]
    by_cases hxv : x < dst.width / 8 * 8
    · rw [if_pos hxv]
      obtain ⟨q0, q1⟩ := hq.resolve_right (by omega)
      unfold u16Col
      dsimp only
      rw [Nat.mod_eq_of_lt hC.1, Nat.mod_eq_of_lt hA.1, widenX_finite _ hC, widenX_finite _ hA, mul_halves hC hA, u16_nat,
        Nat.mod_eq_of_lt (narrowX_lt _ _), hf]
      show RoundsTo q (narrowFb (enc32 q))
      obtain ⟨b1, b2⟩ := narrowFb_enc32 q0 (mul_halves hC hA) q1
      refine ⟨fun _ => ⟨⟨by omega, by omega⟩, fun h hh' => ?_⟩, fun h => by linarith, fun h => by linarith⟩
      rcases Nat.lt_or_ge h 32768 with h1 | h1
      · exact nearest_of_between (by omega) b2 h h1
      · obtain ⟨k, rfl⟩ : ∃ k, h = 32768 + k := ⟨h - 32768, by omega⟩
        have n1 := nearest_of_between (by omega) b2 k (by omega)
        rw [dec_neg (by omega)]
        refine le_trans n1 ?_
        have hk := dec_nonneg (show k < 32768 by omega)
        rw [abs_of_nonpos (by linarith : -dec k - q ≤ 0), abs_le]
        constructor <;> linarith
    · rw [if_neg hxv]
      show RoundsTo q (enc (F32.rnd (dec (pxD 0 src.buffer (src.strideOf 4) 4 y x c) * dec (pxD 0 src.buffer (src.strideOf 4) 4 y x 3))))
      rw [mul_halves hC hA]
      exact roundsTo_enc _
  · have hA := pxD_finite hfin (src.strideOf 4) 4 y x 3
    rw [o4 y x 3 hy hx (by omega), pixelVal, if_neg (by omega)]
    refine congrArg some ?_
    split_ifs
    · exact Nat.mod_eq_of_lt hA.1
    · exact enc_dec hA hz

example : ∃ out, (alphaF16 ⟨true, false, false, false, false⟩ halfBits).premultiply (Demo.flatH 9 0x3E00) (Demo.flatH 9 0x3E00) = some out ∧
    ∀ x, x < 9 → ∃ v, sample out.buffer 38 4 0 x 0 = some v ∧ |dec v - 3 / 4| ≤ 0 := by
  obtain ⟨out, o1, _, _, o4⟩ := C129_premultiply_sse_partial ⟨true, false, false, false, false⟩ (src := Demo.flatH 9 0x3E00)
    (dst := Demo.flatH 9 0x3E00) (by decide +kernel) (by decide +kernel) rfl rfl (by decide) Demo.flatH_finite
  have key : ∀ x < 9, dec (pxD 0 (Demo.flatH 9 0x3E00).buffer ((Demo.flatH 9 0x3E00).strideOf 4) 4 0 x 0) *
      dec (pxD 0 (Demo.flatH 9 0x3E00).buffer ((Demo.flatH 9 0x3E00).strideOf 4) 4 0 x 3) = 3 / 4 := by decide +kernel
  refine ⟨out, o1, fun x hx => ?_⟩
  obtain ⟨v, v1, v2⟩ := (o4 0 x (by decide) hx).1 0 (by decide)
  refine ⟨v, v1, ?_⟩
  dsimp only at v2
  rw [key x hx] at v2
  have := ((v2 (Or.inl (by norm_num))).1 (by norm_num)).2 0x3A00 (by norm_num)
  have e : dec 0x3A00 = 3 / 4 := by decide +kernel
  rw [e, sub_self, abs_zero] at this
  exact this

/-- **C129 fails for negative colours**: -2 with alpha 3/2 becomes +3 in the first eight pixels and -3 in the ninth. -/
theorem C129_violated : (((alphaF16 ⟨true, false, false, false, false⟩ halfBits).premultiply (Demo.flatH 9 0x3E00) (Demo.flatH 9 0x3E00)).map
    fun o => (sample o.buffer 38 4 0 7 1, sample o.buffer 38 4 0 8 1)) = some (some 0x4200, some 0xC200) ∧
    dec 0x4200 = 3 ∧ dec 0xC200 = -3 := by
  decide +kernel

/-! ### C130: unpremultiplication -/

/-- Dividing a half by a half through the reciprocal and rounding to a half. -/
theorem quot_half {c a : ℕ} (ha : FiniteHalf a) (h0 : dec a ≠ 0) (hq : |dec c / dec a| ≤ 65500) :
    FiniteHalf (enc (F32.rnd (dec c * F32.rnd (1 / dec a)))) ∧
    |dec (enc (F32.rnd (dec c * F32.rnd (1 / dec a)))) - dec c / dec a| ≤ |dec c / dec a| / 2000 + 1 / 2 ^ 24 := by
  obtain ⟨m, e, h1, h2, h3, h4⟩ := dec_form ha
  have hm : m ≠ 0 := by
    rintro rfl
    rw [h1] at h0
    simp at h0
  have hm1 : (1 : ℚ) ≤ |(m : ℚ)| := by
    have : 1 ≤ |m| := Int.one_le_abs hm
    exact_mod_cast this
  have hm2 : |(m : ℚ)| ≤ 2047 := by exact_mod_cast h2
  have b1 : 1 / 2 ^ 100 ≤ |dec a| := by
    rw [h1, abs_mul, abs_of_pos (by positivity : (0 : ℚ) < 2 ^ e)]
    have : (2 : ℚ) ^ (-24 : ℤ) ≤ 2 ^ e := zpow_le_zpow_right₀ (by norm_num) h3
    calc (1 : ℚ) / 2 ^ 100 ≤ 1 * 2 ^ (-24 : ℤ) := by norm_num
      _ ≤ _ := by gcongr
  have b2 : |dec a| ≤ 2 ^ 100 := le_trans (dec_abs_lt ha).le (by norm_num)
  have hr := recip_quot_err (c := dec c) b1 b2
  generalize dec c / dec a = t at *
  generalize F32.rnd (dec c * F32.rnd (1 / dec a)) = s at *
  have ht := abs_nonneg t
  have hs : |s| ≤ |t| + (|t| / 2 ^ 22 + 1 / 2 ^ 150) := by
    have := abs_add_le (s - t) t
    rw [sub_add_cancel] at this
    linarith
  have hlt : |s| < 65520 := by
    have : |t| / 2 ^ 22 ≤ 1 := by rw [div_le_one (by positivity)]; linarith
    have : (1 : ℚ) / 2 ^ 150 ≤ 1 := by norm_num
    linarith
  obtain ⟨e1, e2, e3⟩ := enc_near hlt
  refine ⟨⟨e2, e1⟩, ?_⟩
  have h5 := abs_add_le (dec (enc s) - s) (s - t)
  rw [sub_add_sub_cancel] at h5
  have h6 : |s| / 2 ^ 11 ≤ (|t| + (|t| / 2 ^ 22 + 1 / 2 ^ 150)) / 2 ^ 11 := by gcongr
  refine le_trans h5 (le_trans (add_le_add e3 hr) ?_)
  refine le_trans (add_le_add (add_le_add h6 le_rfl) le_rfl) ?_
  have k1 : (|t| + (|t| / 2 ^ 22 + 1 / 2 ^ 150)) / 2 ^ 11 + 1 / 2 ^ 25 + (|t| / 2 ^ 22 + 1 / 2 ^ 150) =
      |t| * (1 / 2 ^ 11 + 1 / 2 ^ 33 + 1 / 2 ^ 22) + (1 / 2 ^ 161 + 1 / 2 ^ 25 + 1 / 2 ^ 150) := by ring
  rw [k1]
  have k2 : |t| * (1 / 2 ^ 11 + 1 / 2 ^ 33 + 1 / 2 ^ 22) ≤ |t| * (1 / 2000) := by
    apply mul_le_mul_of_nonneg_left _ ht
    norm_num
  have k3 : (1 : ℚ) / 2 ^ 161 + 1 / 2 ^ 25 + 1 / 2 ^ 150 ≤ 1 / 2 ^ 24 := by norm_num
  linarith

/-- **C130 (partial).** Unpremultiplying an RGBA f16 image of finite samples should divide every colour by alpha, and
give 0 where alpha is 0. Proved: on CPUs without SSE4.1 everywhere, on the others behind the last full block of 8 (with
AVX2 and F16C: 16) pixels of a row, to within one part in 2000 (plus half the smallest half). In the blocks the code
multiplies instead (`C130_blocks_multiply`, `C130_violated`). -/
theorem C130_unpremultiply_f16_partial (cpu : HalfCpu) {img : Image ℕ} (hs : img.validate 4 = .ok ()) (hp : 0 < img.width)
    (hfin : ∀ v ∈ img.buffer, FiniteHalf v) :
    ∃ out, (alphaF16 cpu halfBits).unpremultiply img = some out ∧
      ∀ y x c, y < img.height → vectorPixelsH cpu img.width ≤ x → x < img.width → c < 3 →
        let q := dec (pxD 0 img.buffer (img.strideOf 4) 4 y x c) / dec (pxD 0 img.buffer (img.strideOf 4) 4 y x 3)
        ∃ v, sample out.buffer (img.strideOf 4) 4 y x c = some v ∧
          (dec (pxD 0 img.buffer (img.strideOf 4) 4 y x 3) = 0 → v = 0) ∧
          (dec (pxD 0 img.buffer (img.strideOf 4) 4 y x 3) ≠ 0 → |q| ≤ 65500 →
            FiniteHalf v ∧ |dec v - q| ≤ |q| / 2000 + 1 / 2 ^ 24) := by
  obtain ⟨out, o1, o2, o3, o4⟩ := unpremultiplyH_spec cpu halfBits hs hp
  refine ⟨out, o1, fun y x c hy hx1 hx2 hc => ?_⟩
  intro q
  have h := o4 y x c hy hx2 (by omega)
  rw [if_neg (by omega), pixelVal, if_pos hc] at h
  refine ⟨_, h, fun h0 => ?_, fun h0 hq => ?_⟩
  · show enc (if dec _ ≠ 0 then _ else 0) = 0
    rw [if_neg (by rw [h0]; simp)]
    decide +kernel
  · have e : halfBits.narrow (if halfBits.widen (pxD 0 img.buffer (img.strideOf 4) 4 y x 3) ≠ 0 then
        F32.rnd (halfBits.widen (pxD 0 img.buffer (img.strideOf 4) 4 y x c) *
          F32.rnd (1 / halfBits.widen (pxD 0 img.buffer (img.strideOf 4) 4 y x 3))) else 0) =
        enc (F32.rnd (dec (pxD 0 img.buffer (img.strideOf 4) 4 y x c) *
          F32.rnd (1 / dec (pxD 0 img.buffer (img.strideOf 4) 4 y x 3)))) := by
      rw [if_pos (show halfBits.widen _ ≠ 0 from h0)]
      rfl
    rw [e]
    exact quot_half (pxD_finite hfin _ _ _ _ _) h0 hq

/-- In full blocks the result is the *product* of colour and alpha, on every CPU with F16C and SSE4.1 (or AVX2). -/
theorem C130_blocks_multiply (cpu : HalfCpu) (hf : cpu.f16c = true) {img : Image ℕ} (hs : img.validate 4 = .ok ())
    (hp : 0 < img.width) (hfin : ∀ v ∈ img.buffer, FiniteHalf v) :
    ∃ out, (alphaF16 cpu halfBits).unpremultiply img = some out ∧
      ∀ y x c, y < img.height → x < vectorPixelsH cpu img.width → c < 3 →
        ∃ v, sample out.buffer (img.strideOf 4) 4 y x c = some v ∧
          RoundsTo (dec (pxD 0 img.buffer (img.strideOf 4) 4 y x c) * dec (pxD 0 img.buffer (img.strideOf 4) 4 y x 3)) v := by
  obtain ⟨out, o1, o2, o3, o4⟩ := unpremultiplyH_spec cpu halfBits hs hp
  have hle : vectorPixelsH cpu img.width ≤ img.width := by
    unfold vectorPixelsH
    split_ifs <;> omega
  refine ⟨out, o1, fun y x c hy hx hc => ⟨_, o4 y x c hy (by omega) (by omega), ?_⟩⟩
  have hC := pxD_finite hfin (img.strideOf 4) 4 y x c
  have hA := pxD_finite hfin (img.strideOf 4) 4 y x 3
  rw [pixelVal, if_pos hc, if_pos hx]
  unfold u16Col
  dsimp only
  rw [Nat.mod_eq_of_lt hC.1, Nat.mod_eq_of_lt hA.1, widenX_finite _ hC, widenX_finite _ hA, mul_halves hC hA, u16_nat,
    Nat.mod_eq_of_lt (narrowX_lt _ _), hf]
  have e : (if dec (pxD 0 img.buffer (img.strideOf 4) 4 y x 3) = 0 then 0 else
      dec (pxD 0 img.buffer (img.strideOf 4) 4 y x c) * dec (pxD 0 img.buffer (img.strideOf 4) 4 y x 3)) =
      dec (pxD 0 img.buffer (img.strideOf 4) 4 y x c) * dec (pxD 0 img.buffer (img.strideOf 4) 4 y x 3) := by
    split_ifs with h0
    · rw [h0, mul_zero]
    · rfl
  rw [e]
  exact roundsTo_enc _

/-- Colour 1/2 and alpha 1/2: a row of 17 pixels gets 1 in the last pixel — and 1/4 in all others on a CPU with AVX2
and F16C, with SSE4.1 in the first 16. -/
theorem C130_violated {cpu : HalfCpu} (hcpu : cpu = ⟨true, true, true, true, false⟩ ∨ cpu = ⟨true, false, false, false, false⟩) :
    (((alphaF16 cpu halfBits).unpremultiply (Demo.flatH 17 0x3800)).map
      fun o => (sample o.buffer 70 4 0 0 0, sample o.buffer 70 4 0 15 0, sample o.buffer 70 4 0 16 0)) =
        some (some 0x3400, some 0x3400, some 0x3C00) ∧ dec 0x3800 = 1 / 2 ∧ dec 0x3400 = 1 / 4 ∧ dec 0x3C00 = 1 := by
  rcases hcpu with rfl | rfl <;> decide +kernel

example : ∃ out, (alphaF16 ⟨true, true, true, true, false⟩ halfBits).unpremultiply (Demo.flatH 9 0x3E00) = some out ∧
    ∃ v, sample out.buffer 38 4 0 8 1 = some v ∧ |dec v + 4 / 3| ≤ 1 / 1000 := by
  obtain ⟨out, o1, o2⟩ := C130_unpremultiply_f16_partial ⟨true, true, true, true, false⟩ (img := Demo.flatH 9 0x3E00)
    (by decide +kernel) (by decide) Demo.flatH_finite
  obtain ⟨v, v1, _, v3⟩ := o2 0 8 1 (by decide) (by decide) (by decide) (by decide)
  have key : dec (pxD 0 (Demo.flatH 9 0x3E00).buffer ((Demo.flatH 9 0x3E00).strideOf 4) 4 0 8 1) /
      dec (pxD 0 (Demo.flatH 9 0x3E00).buffer ((Demo.flatH 9 0x3E00).strideOf 4) 4 0 8 3) = -(4 / 3) := by decide +kernel
  rw [key] at v3
  refine ⟨out, o1, v, v1, ?_⟩
  have e : |(-(4 / 3) : ℚ)| = 4 / 3 := by rw [abs_neg, abs_of_pos (by norm_num)]
  rw [e] at v3
  have := (v3 (by decide +kernel) (by norm_num)).2
  rw [sub_neg_eq_add] at this
  exact le_trans this (by norm_num)
example : ∃ out, (alphaF16 ⟨true, false, true, true, false⟩ halfBits).unpremultiply (Demo.flatH 9 0x3E00) = some out ∧
    ∃ v, sample out.buffer 38 4 0 7 1 = some v ∧ RoundsTo (-3) v := by
  obtain ⟨out, o1, o2⟩ := C130_blocks_multiply ⟨true, false, true, true, false⟩ rfl (img := Demo.flatH 9 0x3E00)
    (by decide +kernel) (by decide) Demo.flatH_finite
  obtain ⟨v, v1, v2⟩ := o2 0 7 1 (by decide) (by decide) (by decide)
  have key : dec (pxD 0 (Demo.flatH 9 0x3E00).buffer ((Demo.flatH 9 0x3E00).strideOf 4) 4 0 7 1) *
      dec (pxD 0 (Demo.flatH 9 0x3E00).buffer ((Demo.flatH 9 0x3E00).strideOf 4) 4 0 7 3) = -3 := by decide +kernel
  rw [key] at v2
  exact ⟨out, o1, v, v1, v2⟩

/-! ### C131: what unpremultiplication leaves alone -/

/-- **C131.** On every x86 CPU, whatever the samples (also infinities and NaN), unpremultiplying an RGBA f16 image
returns normally, accesses nothing outside the buffer, keeps the bits of every alpha and all row padding. -/
theorem C131_unpremultiply_f16_frame (cpu : HalfCpu) {img : Image ℕ} (hs : img.validate 4 = .ok ()) (hp : 0 < img.width)
    (h16 : ∀ v ∈ img.buffer, v < 0x10000) :
    ∃ out, (alphaF16 cpu halfBits).unpremultiply img = some out ∧ SameShape out img ∧ PaddingKept 4 img out ∧
      ∀ y x, y < img.height → x < img.width →
        sample out.buffer (img.strideOf 4) 4 y x 3 = some (pxD 0 img.buffer (img.strideOf 4) 4 y x 3) := by
  obtain ⟨out, o1, o2, o3, o4⟩ := unpremultiplyH_spec cpu halfBits hs hp
  refine ⟨out, o1, o2, o3, fun y x hy hx => ?_⟩
  rw [o4 y x 3 hy hx (by omega), pixelVal, if_neg (by omega)]
  refine congrArg some ?_
  split_ifs
  · exact Nat.mod_eq_of_lt (pxD_all (P := fun v => v < 65536) h16 (by norm_num) _ _ _ _ _)
  · rfl

example : ∃ out, (alphaF16 ⟨true, true, true, true, false⟩ halfBits).unpremultiply (Demo.flatH 17 0x8000) = some out ∧
    sample out.buffer 70 4 0 3 3 = some 0x8000 ∧ sample out.buffer 70 4 0 16 3 = some 0x8000 := by
  obtain ⟨out, o1, _, _, o4⟩ := C131_unpremultiply_f16_frame ⟨true, true, true, true, false⟩ (img := Demo.flatH 17 0x8000)
    (by decide +kernel) (by decide) (by decide +kernel)
  exact ⟨out, o1, (o4 0 3 (by decide) (by decide)).trans (by decide +kernel), (o4 0 16 (by decide) (by decide)).trans (by decide +kernel)⟩

end PicScale
