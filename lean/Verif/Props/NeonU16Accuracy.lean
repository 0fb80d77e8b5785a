import Verif.Props.NeonU16
import Verif.Lemmas.NeonU16Err

/-!
Property theorems about the accuracy of vertical resizes of u16 images on AArch64: C186–C189.
-/

namespace PicScale

open Spec Finset

/-- The exact weighted sum of the column of a sample is `clampQ` of this. -/
abbrev columnOf (store : Image ℕ) (N start x c : ℕ) : ℕ → ℚ :=
  fun k => ((pxD 0 store.buffer (store.strideOf N) N (start + k) x c : ℕ) : ℚ)

/-! ### C186: more than 12 bits -/

/-- **C186.** Above 12 bits, for rows of a multiple of 16 samples, at most 4, or 8: every sample of a resize on NEON
that keeps the width is within a half, plus the binary32 error of the sum, of the exact weighted sum of its column
clamped to the depth. (Rows of other lengths read other columns: C182.) -/
theorem C186_u16_neon_deep_accuracy {W N : ℕ} {L : Lib} {r : ResamplingFunction} {store into : Image ℕ}
    (h : AcceptedCall16 W N r store into) (h12 : 12 < into.bitDepth) (hw : store.width = into.width)
    (hn : store.width * N % 16 = 0 ∨ store.width * N ≤ 4 ∨ store.width * N = 8) (half : Bool) :
    ∃ vf out, tableOf L r store.height into.height = some vf ∧
      genericResize W N (formatU16Neon half N) L r store into = some (.ok (), out) ∧
      ∀ y x c, y < into.height → x < into.width → c < N → ∃ v, sample out.buffer (into.strideOf N) N y x c = some v ∧
        |(v : ℚ) - clampQ (2 ^ into.bitDepth - 1) (dotSum (vf.bound y).size (columnOf store N (vf.bound y).start x c)
            (fun k => vf.weight y k))| ≤
          1 / 2 + Spec.floatErr (vf.bound y).size (termSize (vf.bound y).size (columnOf store N (vf.bound y).start x c)
            (fun k => vf.weight y k)) := by
  obtain ⟨vf, _, out, ev, _, Tv, _, _, _, o1, _, _, o4⟩ := u16Neon_raw (L := L) h half
  have hne : store.height ≠ into.height := by have := h.sizes; tauto
  refine ⟨vf, out, ev, o1, fun y x c hy hx hc => ⟨_, o4 y x c hy hx hc, ?_⟩⟩
  simp only [sepFun, if_pos hw, if_neg hne]
  rw [vvNeon16_deep _ h12 h.depth_le, (readColumn16 _).2 hn _ (pos_lt (by omega) hc)]
  have k := tapF_near (rowW vf y) (colOf vf (rowPos 0 store.buffer (store.strideOf N)) y (x * N + c)) (vf.bound y).size
  have k := le_trans (nearestClamp_near into.bitDepth _ _) (add_le_add le_rfl k)
  simp only [rowW_getD, colOf, rowPos_pxD] at k
  exact k

theorem Demo.uflat16 : AcceptedCall16 (2 ^ 64) 1 .bilinear ⟨(List.range 32).map (· * 30), 1, 16, 2, 16, 16⟩
    ⟨List.replicate 16 0, 1, 16, 1, 16, 16⟩ := by constructor <;> decide +kernel

example : ∃ vf out, tableOf demoLib .bilinear 2 1 = some vf ∧ genericResize (2 ^ 64) 1 (formatU16Neon false 1) demoLib
    .bilinear ⟨(List.range 32).map (· * 30), 1, 16, 2, 16, 16⟩ ⟨List.replicate 16 0, 1, 16, 1, 16, 16⟩ = some (.ok (), out) := by
  obtain ⟨vf, out, h1, h2, _⟩ := C186_u16_neon_deep_accuracy (L := demoLib) Demo.uflat16 (by decide) rfl (by decide) false
  exact ⟨vf, out, h1, h2⟩

/-! ### C187: half precision -/

/-- **C187.** Up to 12 bits in half precision, for rows of a multiple of 16 samples, at most 4, or 8, where the
weighted sums cannot overflow binary16: every sample of a resize that keeps the width is within a half, plus the
binary16 error of the sum, of the exact weighted sum of its column clamped to the depth. -/
theorem C187_u16_neon_half_accuracy {W N : ℕ} {L : Lib} {r : ResamplingFunction} {store into : Image ℕ}
    (h : AcceptedCall16 W N r store into) (h12 : into.bitDepth ≤ 12) (hr : ∀ v ∈ store.buffer, v ≤ 2 ^ into.bitDepth - 1)
    (hw : store.width = into.width)
    (hn : store.width * N % 16 = 0 ∨ store.width * N ≤ 4 ∨ store.width * N = 8) :
    ∃ vf out, tableOf L r store.height into.height = some vf ∧
      genericResize W N (formatU16Neon true N) L r store into = some (.ok (), out) ∧
      ∀ y x c, y < into.height → x < into.width → c < N →
        HalfFits (vf.bound y).size (columnOf store N (vf.bound y).start x c) (fun k => vf.weight y k) →
        ∃ v, sample out.buffer (into.strideOf N) N y x c = some v ∧
        |(v : ℚ) - clampQ (2 ^ into.bitDepth - 1) (dotSum (vf.bound y).size (columnOf store N (vf.bound y).start x c)
            (fun k => vf.weight y k))| ≤
          1 / 2 + halfSumErr (vf.bound y).size (columnOf store N (vf.bound y).start x c) (fun k => vf.weight y k) := by
  obtain ⟨vf, _, out, ev, _, Tv, _, _, _, o1, _, _, o4⟩ := u16Neon_raw (L := L) h true
  have hne : store.height ≠ into.height := by have := h.sizes; tauto
  refine ⟨vf, out, ev, o1, fun y x c hy hx hc hf => ⟨_, o4 y x c hy hx hc, ?_⟩⟩
  simp only [sepFun, if_pos hw, if_neg hne]
  have hd : 2 ^ into.bitDepth ≤ 2 ^ 12 := Nat.pow_le_pow_right (by omega) h12
  have hP := rowPos_le hr (store.strideOf N)
  rw [vvNeon16_half h12, narrowH_eq (by omega), (readColumn16 _).2 hn _ (pos_lt (by omega) hc)]
  have k := tapH_near (rowW vf y) (rowW (halfWeights vf) y)
    (colOf vf (rowPos 0 store.buffer (store.strideOf N)) y (x * N + c)) (vf.bound y).size
    (fun k _ => by
      have := hP ((vf.bound y).start + k) (x * N + c)
      unfold colOf
      omega)
    (fun k _ => by rw [rowW_getD, rowW_getD, halfWeights_weight])
    (by simpa only [rowW_getD, colOf, rowPos_pxD] using hf)
  have k := le_trans (nearestClamp_near into.bitDepth _ _) (add_le_add le_rfl k)
  simp only [rowW_getD, colOf, rowPos_pxD] at k
  exact k

instance (n : ℕ) (p w : ℕ → ℚ) : Decidable (HalfFits n p w) :=
  inferInstanceAs (Decidable (_ ∧ _))

/-- Non-vacuous: halving the height of a 10-bit plane; the sums fit. -/
example : ∃ vf out, tableOf demoLib .bilinear 2 1 = some vf ∧ genericResize (2 ^ 64) 1 (formatU16Neon true 1) demoLib
      .bilinear ⟨(List.range 32).map (· * 30), 1, 16, 2, 16, 10⟩ ⟨List.replicate 16 0, 1, 16, 1, 16, 10⟩ = some (.ok (), out) ∧
    HalfFits (vf.bound 0).size (columnOf ⟨(List.range 32).map (· * 30), 1, 16, 2, 16, 10⟩ 1 (vf.bound 0).start 3 0)
      (fun k => vf.weight 0 k) := by
  obtain ⟨vf, out, h1, h2, _⟩ := C187_u16_neon_half_accuracy (L := demoLib) Demo.uflat.call (by decide) Demo.uflat.inRange
    rfl (by decide)
  refine ⟨vf, out, h1, h2, ?_⟩
  have e : (tableOf demoLib .bilinear 2 1).map (fun vf => decide (HalfFits (vf.bound 0).size
      (columnOf ⟨(List.range 32).map (· * 30), 1, 16, 2, 16, 10⟩ 1 (vf.bound 0).start 3 0) (fun k => vf.weight 0 k))) =
      some true := by decide +kernel
  rw [h1] at e
  simpa using e

/-! ### C188: the picture does not depend on half precision -/

/-- **C188.** Whether the CPU computes in half precision does not change a resize of more than 12 bits, nor one that
keeps the height. A change of height up to 12 bits: `C188_violated`. -/
theorem C188_u16_neon_half_same_partial {W N : ℕ} {L : Lib} {r : ResamplingFunction} {store into : Image ℕ}
    (h : AcceptedCall16 W N r store into) (hm : 12 < into.bitDepth ∨ store.height = into.height) :
    ∃ out out', genericResize W N (formatU16Neon true N) L r store into = some (.ok (), out) ∧
      genericResize W N (formatU16Neon false N) L r store into = some (.ok (), out') ∧
      ∀ y x c, y < into.height → x < into.width → c < N →
        sample out.buffer (into.strideOf N) N y x c = sample out'.buffer (into.strideOf N) N y x c := by
  obtain ⟨vf, hf, out, ev, eh, _, _, _, _, o1, _, _, o4⟩ := u16Neon_raw (L := L) h true
  obtain ⟨vf', hf', out', ev', eh', _, _, _, _, o1', _, _, o4'⟩ := u16Neon_raw (L := L) h false
  rw [ev] at ev'
  obtain rfl := Option.some.inj ev'
  rw [eh] at eh'
  obtain rfl := Option.some.inj eh'
  refine ⟨out, out', o1, o1', fun y x c hy hx hc => ?_⟩
  rw [o4 y x c hy hx hc, o4' y x c hy hx hc]
  rcases hm with h12 | hh
  · unfold sepFun
    simp only [vvNeon16_deep _ h12 h.depth_le]
  · simp only [sepFun, if_pos hh]

example : ∃ out out', genericResize (2 ^ 64) 4 (formatU16Neon true 4) demoLib .bilinear (Demo.usrc 16) (Demo.udst 16) =
      some (.ok (), out) ∧
    genericResize (2 ^ 64) 4 (formatU16Neon false 4) demoLib .bilinear (Demo.usrc 16) (Demo.udst 16) = some (.ok (), out') := by
  obtain ⟨out, out', h1, h2, _⟩ := C188_u16_neon_half_same_partial (L := demoLib) Demo.ucall16 (Or.inl (by decide))
  exact ⟨out, out', h1, h2⟩

/-- **C188 fails**: halving the height of a flat 12-bit picture of 2049, half precision gives 2048. -/
theorem C188_violated :
    genericResize (2 ^ 64) 1 (formatU16Neon true 1) demoLib .bilinear ⟨List.replicate 8 2049, 1, 4, 2, 4, 12⟩
      ⟨List.replicate 4 0, 1, 4, 1, 4, 12⟩ = some (.ok (), ⟨List.replicate 4 2048, 1, 4, 1, 4, 12⟩) ∧
    genericResize (2 ^ 64) 1 (formatU16Neon false 1) demoLib .bilinear ⟨List.replicate 8 2049, 1, 4, 2, 4, 12⟩
      ⟨List.replicate 4 0, 1, 4, 1, 4, 12⟩ = some (.ok (), ⟨List.replicate 4 2049, 1, 4, 1, 4, 12⟩) := by
  decide +kernel

/-! ### C189: NEON against the portable code -/

/-- Rounding to nearest, halves down, against truncation. -/
theorem fixedHalfDown_floor (hi n : ℕ) (w : ℕ → ℤ) (p : ℕ → ℕ) :
    fixedFloor hi n w p ≤ fixedHalfDown hi n w p ∧ fixedHalfDown hi n w p ≤ fixedFloor hi n w p + 1 := by
  unfold fixedFloor fixedHalfDown
  generalize wsum n w _ = S
  have : fixFloor S ≤ fixRoundDown S ∧ fixRoundDown S ≤ fixFloor S + 1 := by
    unfold fixFloor fixRoundDown
    constructor
    · rw [Int.le_ceil_iff]
      have := Int.floor_le ((S : ℚ) / 32768)
      linarith
    · rw [Int.ceil_le]
      have := Int.lt_floor_add_one ((S : ℚ) / 32768)
      push_cast
      linarith
  unfold clamp
  omega

/-- **C189.** Up to 12 bits in fixed point, for rows of a multiple of 16 samples, at most 4, or 8: a resize that keeps the
width gives the samples of the portable code or one more (NEON rounds, the portable code truncates).
`C189_violated`: one more it is. -/
theorem C189_u16_neon_vertical_portable_partial {W N : ℕ} {L : Lib} {r : ResamplingFunction} {store into : Image ℕ}
    (h : AcceptedLb W N L r store into) (hw : store.width = into.width)
    (hn : store.width * N % 16 = 0 ∨ store.width * N ≤ 4 ∨ store.width * N = 8) (fma fused : Bool) :
    ∃ out out', genericResize W N (formatU16Neon false N) L r store into = some (.ok (), out) ∧
      genericResize W N (formatU16X86 ⟨false, false⟩ fma fused N) L r store into = some (.ok (), out') ∧
      ∀ y x c, y < into.height → x < into.width → c < N → ∃ v v',
        sample out.buffer (into.strideOf N) N y x c = some v ∧ sample out'.buffer (into.strideOf N) N y x c = some v' ∧
        v' ≤ v ∧ v ≤ v' + 1 := by
  obtain ⟨q, out, t, o1, o4⟩ := C182_u16_neon_columns_partial h hw hn
  obtain ⟨q', _, out', t', _, _, _, o1', _, _, o4'⟩ := u16X86_values h ⟨false, false⟩ fma fused
  obtain ⟨f, e, rfl⟩ := t
  obtain ⟨f', e', rfl⟩ := t'
  rw [e] at e'
  obtain rfl := Option.some.inj e'
  have hne : store.height ≠ into.height := by have := h.call.sizes; tauto
  refine ⟨out, out', o1, o1', fun y x c hy hx hc => ⟨_, _, o4 y x c hy hx hc, o4' y x c hy hx hc, ?_⟩⟩
  simp only [sepFun, if_pos hw, if_neg hne, vLb, rowPos_pxD]
  exact fixedHalfDown_floor _ _ _ _

example : ∃ out out', genericResize (2 ^ 64) 1 (formatU16Neon false 1) demoLib .bilinear
      ⟨(List.range 32).map (· * 30), 1, 16, 2, 16, 10⟩ ⟨List.replicate 16 0, 1, 16, 1, 16, 10⟩ = some (.ok (), out) ∧
    genericResize (2 ^ 64) 1 (formatU16X86 ⟨false, false⟩ false true 1) demoLib .bilinear
      ⟨(List.range 32).map (· * 30), 1, 16, 2, 16, 10⟩ ⟨List.replicate 16 0, 1, 16, 1, 16, 10⟩ = some (.ok (), out') := by
  obtain ⟨out, out', h1, h2, _⟩ := C189_u16_neon_vertical_portable_partial Demo.uflat rfl (Or.inl rfl) false true
  exact ⟨out, out', h1, h2⟩

/-- **C189 fails** in general: reducing five rows to two, NEON and the portable code differ. -/
theorem C189_violated :
    genericResize (2 ^ 64) 1 (formatU16Neon false 1) demoLib .bilinear ⟨[0, 1, 0, 1, 1], 1, 1, 5, 1, 10⟩
      ⟨[0, 0], 1, 1, 2, 1, 10⟩ ≠
    genericResize (2 ^ 64) 1 (formatU16X86 ⟨false, false⟩ false true 1) demoLib .bilinear ⟨[0, 1, 0, 1, 1], 1, 1, 5, 1, 10⟩
      ⟨[0, 0], 1, 1, 2, 1, 10⟩ := by
  decide +kernel

end PicScale
