import Verif.Lemmas.FixedPass
import Mathlib.Tactic.IntervalCases

/-!
Property theorems about one fixed point pass (8-bit images and u16 images of at most 12 bits):
C18, C19, C20, C22, C23, C24 and the convolution part of C08.
-/

namespace PicScale

open Finset Spec

/-- From row/column form to `PaddingKept`. -/
theorem paddingKept_of {S : Type} {N : ℕ} {dst : Image S} {r : List S} (hN : 1 ≤ N)
    (hd : dst.validate N = .ok ()) (hl : r.length = dst.buffer.length)
    (h : ∀ y p, y < dst.height → dst.width * N ≤ p → p < dst.strideOf N →
        r[y * dst.strideOf N + p]? = dst.buffer[y * dst.strideOf N + p]?) :
    PaddingKept N dst { dst with buffer := r } := by
  intro p hp
  obtain ⟨d1, d2, _⟩ := validate_ok hd
  dsimp only
  by_cases hlt : p < dst.buffer.length
  · rcases Nat.eq_zero_or_pos (dst.strideOf N) with hz | hpos
    · rw [d1, hz] at hlt; simp at hlt
    · have hy : p / dst.strideOf N < dst.height := by
        rw [Nat.div_lt_iff_lt_mul hpos, ← d1]; exact hlt
      have hdm : p / dst.strideOf N * dst.strideOf N + p % dst.strideOf N = p := Nat.div_add_mod' _ _
      have hm := Nat.mod_lt p hpos
      have := h (p / dst.strideOf N) (p % dst.strideOf N) hy (by
        by_contra hc
        apply hp
        refine ⟨p / dst.strideOf N, (p % dst.strideOf N) / N, (p % dst.strideOf N) % N, hy, ?_,
          Nat.mod_lt _ hN, ?_⟩
        · rw [Nat.div_lt_iff_lt_mul hN]; omega
        · rw [Nat.add_assoc, Nat.div_add_mod', hdm]) hm
      rw [hdm] at this
      exact this
  · rw [List.getElem?_eq_none (by omega), List.getElem?_eq_none (by omega)]

/-- **C18.** The horizontal pass writes, at every pixel and channel, the rounded and clamped weighted
sum of the window of the same source row — for every window size, height, and pair of strides — and
writes nothing else. -/
theorem C18_horizontal_pass {N hi M : ℕ} {src dst : Image ℕ} {fw : FilterWeights ℤ}
    (hN : 1 ≤ N ∧ N ≤ 4) (hs : src.validate N = .ok ()) (hd : dst.validate N = .ok ())
    (hh : src.height = dst.height) (hsw : 0 < src.width) (hdw : 0 < dst.width)
    (hT : ValidTable fw src.width dst.width) (hM : ∀ v ∈ src.buffer, v ≤ M)
    (hO : NoOverflow fw dst.width M) :
    ∃ out, horizontalFixed N hi src dst fw = some out ∧ SameShape out dst ∧
      PaddingKept N dst out ∧
      ∀ y x c, y < dst.height → x < dst.width → c < N →
        sample out.buffer (dst.strideOf N) N y x c = some (clamp hi (fixRound
          (wsum (fw.bound x).size (fun k => fw.weight x k)
            (fun k => px src.buffer (src.strideOf N) N y ((fw.bound x).start + k) c)))) := by
  obtain ⟨r, h1, h2, h3, h4⟩ := horizontalFixed_raw (hi := hi) hN hs hd hh hsw hdw hT
  refine ⟨_, h1, ⟨rfl, rfl, rfl, rfl, rfl, h2⟩, paddingKept_of hN.1 hd h2 h4, ?_⟩
  intro y x c hy hx hc
  simp only [sample]
  rw [h3 y x c hy hx hc]
  have hb := wsum_abs_le (n := (fw.bound x).size) (w := fun k => fw.weight x k)
    (p := fun k => px src.buffer (src.strideOf N) N y ((fw.bound x).start + k) c) (M := M)
    (fun k _ => by
      rw [px_eq]
      have := getD_le_of_forall hM (y * src.strideOf N + ((fw.bound x).start + k) * N + c)
      omega)
  have ho := hO x hx
  rw [abs_le] at hb
  rw [i32_eq_self (by omega) (by omega), saturateNarrow_round]

/-- **C19.** The vertical pass writes, at every pixel and channel, the truncated and clamped weighted
sum of the window of the same source column — for every row width and pair of strides — and writes
nothing else. -/
theorem C19_vertical_pass {N hi M : ℕ} {src dst : Image ℕ} {fw : FilterWeights ℤ}
    (hN : 1 ≤ N) (hs : src.validate N = .ok ()) (hd : dst.validate N = .ok ())
    (hw : src.width = dst.width) (hdw : 0 < dst.width)
    (hT : ValidTable fw src.height dst.height) (hM : ∀ v ∈ src.buffer, v ≤ M)
    (hO : NoOverflow fw dst.height M) :
    ∃ out, verticalFixed N hi src dst fw = some out ∧ SameShape out dst ∧
      PaddingKept N dst out ∧
      ∀ y x c, y < dst.height → x < dst.width → c < N →
        sample out.buffer (dst.strideOf N) N y x c = some (clamp hi (fixFloor
          (wsum (fw.bound y).size (fun k => fw.weight y k)
            (fun k => px src.buffer (src.strideOf N) N ((fw.bound y).start + k) x c)))) := by
  obtain ⟨r, h1, h2, h3, h4⟩ := verticalFixed_raw (hi := hi) hN hs hd hw hdw hT
  refine ⟨_, h1, ⟨rfl, rfl, rfl, rfl, rfl, h2⟩, paddingKept_of hN hd h2 h4, ?_⟩
  intro y x c hy hx hc
  simp only [sample]
  rw [h3 y x c hy hx hc]
  have hb := wsum_abs_le (n := (fw.bound y).size) (w := fun k => fw.weight y k)
    (p := fun k => px src.buffer (src.strideOf N) N ((fw.bound y).start + k) x c) (M := M)
    (fun k _ => by
      rw [px_eq]
      have := getD_le_of_forall hM (((fw.bound y).start + k) * src.strideOf N + x * N + c)
      omega)
  have ho := hO y hy
  rw [abs_le] at hb
  rw [i32_eq_self (by omega) (by omega), saturateNarrow_floor]

/-- **C22 (passes).** Whatever the sample values and weights, neither pass panics or accesses a slice
out of bounds on validated images and a valid table. -/
theorem C22_passes_no_panic {N hi : ℕ} {src dst : Image ℕ} {fw : FilterWeights ℤ}
    (hN : 1 ≤ N ∧ N ≤ 4) (hs : src.validate N = .ok ()) (hd : dst.validate N = .ok ())
    (hsw : 0 < src.width) (hdw : 0 < dst.width) :
    (src.height = dst.height → ValidTable fw src.width dst.width →
      (horizontalFixed N hi src dst fw).isSome) ∧
    (src.width = dst.width → ValidTable fw src.height dst.height →
      (verticalFixed N hi src dst fw).isSome) := by
  constructor
  · intro hh hT
    obtain ⟨r, h1, _⟩ := horizontalFixed_raw (hi := hi) hN hs hd hh hsw hdw hT
    simp [h1]
  · intro hw hT
    obtain ⟨r, h1, _⟩ := verticalFixed_raw (hi := hi) hN.1 hs hd hw hdw hT
    simp [h1]

/-- **C23.** Every sample a pass writes is within the range of the sample type / bit depth, whatever
the source samples and the weights (even if accumulators wrap). -/
theorem C23_output_range {N : ℕ} {t : SampleTy} {depth : ℕ} {src dst out : Image ℕ}
    {fw : FilterWeights ℤ}
    (hN : 1 ≤ N ∧ N ≤ 4) (hs : src.validate N = .ok ()) (hd : dst.validate N = .ok ())
    (hsw : 0 < src.width) (hdw : 0 < dst.width)
    (h : (src.height = dst.height ∧ ValidTable fw src.width dst.width ∧
        horizontalFixed N (t.hi depth) src dst fw = some out) ∨
      (src.width = dst.width ∧ ValidTable fw src.height dst.height ∧
        verticalFixed N (t.hi depth) src dst fw = some out)) :
    ∀ y x c, y < dst.height → x < dst.width → c < N →
      ∃ v, sample out.buffer (dst.strideOf N) N y x c = some v ∧
        v ≤ (match t with | .u8 => 255 | .u16 => 2 ^ depth - 1) := by
  have hle : ∀ v, saturateNarrow (t.hi depth) v ≤ (match t with | .u8 => 255 | .u16 => 2 ^ depth - 1) := by
    intro v
    rw [saturateNarrow_floor]
    refine le_trans (clamp_le _ _) ?_
    cases t <;> simp [SampleTy.hi]
  intro y x c hy hx hc
  rcases h with ⟨hh, hT, ho⟩ | ⟨hw, hT, ho⟩
  · obtain ⟨r, h1, h2, h3, h4⟩ := horizontalFixed_raw (hi := t.hi depth) hN hs hd hh hsw hdw hT
    rw [h1] at ho
    obtain rfl := Option.some.inj ho
    exact ⟨_, h3 y x c hy hx hc, hle _⟩
  · obtain ⟨r, h1, h2, h3, h4⟩ := verticalFixed_raw (hi := t.hi depth) hN.1 hs hd hw hdw hT
    rw [h1] at ho
    obtain rfl := Option.some.inj ho
    exact ⟨_, h3 y x c hy hx hc, hle _⟩

/-! ### C24: accumulators -/

/-- `v` fits `i32`. -/
def FitsI32 (v : ℤ) : Prop := -2 ^ 31 ≤ v ∧ v < 2 ^ 31

theorem C24_aux {n M : ℕ} {w p : ℕ → ℤ} (hp : ∀ k, k < n → 0 ≤ p k ∧ p k ≤ M)
    (h : (∑ k ∈ range n, |w k|) * M + 2 ^ 14 < 2 ^ 31) (m : ℕ) (hm : m ≤ n) :
    FitsI32 (wsum m w p) ∧ FitsI32 (16384 + wsum m w p) ∧ (m < n → FitsI32 (p m * w m)) := by
  have hsub : (∑ k ∈ range m, |w k|) ≤ ∑ k ∈ range n, |w k| :=
    sum_le_sum_of_subset_of_nonneg (by intro i hi; simp at hi ⊢; omega) (fun _ _ _ => abs_nonneg _)
  have hM : (0 : ℤ) ≤ M := by omega
  have h1 := wsum_abs_le (n := m) (w := w) (p := p) (M := M) (fun k hk => hp k (by omega))
  have h2 : (∑ k ∈ range m, |w k|) * (M : ℤ) ≤ (∑ k ∈ range n, |w k|) * M :=
    mul_le_mul_of_nonneg_right hsub hM
  rw [abs_le] at h1
  refine ⟨⟨by omega, by omega⟩, ⟨by omega, by omega⟩, fun hmn => ?_⟩
  have h3 : |w m| ≤ ∑ k ∈ range n, |w k| :=
    single_le_sum (f := fun k => |w k|) (fun _ _ => abs_nonneg _) (by simp; omega)
  have h4 : |p m * w m| ≤ (∑ k ∈ range n, |w k|) * M := by
    rw [abs_mul, abs_of_nonneg (hp m hmn).1, mul_comm]
    exact mul_le_mul h3 (hp m hmn).2 (hp m hmn).1 (le_trans (abs_nonneg _) h3)
  rw [abs_le] at h4
  exact ⟨by omega, by omega⟩

/-- **C24.** For every window whose quantised weights have absolute sum at most `2^23` (8-bit samples)
or `2^19` (12-bit samples), every product and every left-to-right partial sum, with or without
the rounding term, fits `i32` — so neither the horizontal nor the vertical accumulation overflows. -/
theorem C24_no_overflow {n : ℕ} {w p : ℕ → ℤ}
    (h : (∑ k ∈ range n, |w k| ≤ 2 ^ 23 ∧ ∀ k, k < n → 0 ≤ p k ∧ p k ≤ 255) ∨
      (∑ k ∈ range n, |w k| ≤ 2 ^ 19 ∧ ∀ k, k < n → 0 ≤ p k ∧ p k ≤ 4095)) (m : ℕ) (hm : m ≤ n) :
    FitsI32 (wsum m w p) ∧ FitsI32 (16384 + wsum m w p) ∧ (m < n → FitsI32 (p m * w m)) := by
  rcases h with ⟨h1, h2⟩ | ⟨h1, h2⟩
  · exact C24_aux (M := 255) h2 (by push_cast; omega) m hm
  · exact C24_aux (M := 4095) h2 (by push_cast; omega) m hm

/-- Every table of `i16` weights with windows of at most 256 taps satisfies `NoOverflow` for 8-bit
samples, whatever the filter. -/
theorem C24_i16_256_taps {fw : FilterWeights ℤ} {inn out : ℕ} (_hT : ValidTable fw inn out)
    (h16 : ∀ w ∈ fw.weights, -32768 ≤ w ∧ w ≤ 32767)
    (h256 : ∀ i, i < out → (fw.bound i).size ≤ 256) : NoOverflow fw out 255 := by
  intro i hi
  have hw : ∀ k, |fw.weight i k| ≤ 32768 := by
    intro k
    unfold FilterWeights.weight
    by_cases hlt : i * fw.alignedSize + k < fw.weights.length
    · rw [List.getD_eq_getElem?_getD, List.getElem?_eq_getElem hlt]
      have := h16 _ (List.getElem_mem hlt)
      simp only [Option.getD_some]
      rw [abs_le]; omega
    · rw [List.getD_eq_getElem?_getD, List.getElem?_eq_none (by omega)]
      simp
  have : ∑ k ∈ range (fw.bound i).size, |fw.weight i k| ≤ ∑ _k ∈ range (fw.bound i).size, (32768 : ℤ) :=
    sum_le_sum fun k _ => hw k
  rw [sum_const, card_range, nsmul_eq_mul] at this
  have h2 := h256 i hi
  have : ((fw.bound i).size : ℤ) ≤ 256 := by exact_mod_cast h2
  push_cast
  omega

/-! ### Non-vacuity -/

namespace Demo

/-- 3 → 2 coordinates, kernel of 3, second window clipped. -/
def table : FilterWeights ℤ :=
  { weights := [16384, 20000, -3616, 20000, 12768, 0], bounds := [⟨0, 3⟩, ⟨1, 2⟩], kernelSize := 3,
    alignedSize := 3, distinctElements := 2 }

theorem table_valid : ValidTable table 3 2 := by
  constructor <;> decide

theorem table_noOverflow : NoOverflow table 2 255 := by
  intro i hi
  interval_cases i <;> decide

/-- 3 × 5 image of 2 channels, stride 7 (one padding element per row). -/
def src : Image ℕ :=
  { buffer := (List.range 35).map (· * 7), channels := 2, width := 3, height := 5, stride := 7, bitDepth := 8 }
def dst : Image ℕ :=
  { buffer := List.replicate 25 9, channels := 2, width := 2, height := 5, stride := 5, bitDepth := 8 }

example : ∃ out, horizontalFixed 2 255 src dst table = some out ∧ SameShape out dst ∧
    PaddingKept 2 dst out := by
  obtain ⟨out, h1, h2, h3, _⟩ := C18_horizontal_pass (hi := 255) (N := 2) (M := 255) (src := src)
    (dst := dst) (fw := table) (by decide) (by decide) (by decide) (by decide) (by decide) (by decide)
    table_valid (by decide) table_noOverflow
  exact ⟨out, h1, h2, h3⟩

def vsrc : Image ℕ :=
  { buffer := (List.range 21).map (· * 12), channels := 2, width := 3, height := 3, stride := 7, bitDepth := 8 }
def vdst : Image ℕ :=
  { buffer := List.replicate 16 9, channels := 2, width := 3, height := 2, stride := 8, bitDepth := 8 }

example : ∃ out, verticalFixed 2 255 vsrc vdst table = some out ∧ PaddingKept 2 vdst out := by
  obtain ⟨out, h1, h2, h3, _⟩ := C19_vertical_pass (hi := 255) (N := 2) (M := 255) (src := vsrc)
    (dst := vdst) (fw := table) (by decide) (by decide) (by decide) (by decide) (by decide)
    table_valid (by decide) table_noOverflow
  exact ⟨out, h1, h3⟩

/-- The horizontal pass on the demo image really computes something. -/
example : (horizontalFixed 2 255 src dst table).map (·.buffer.take 10) =
    some [5, 12, 19, 26, 9, 54, 61, 68, 75, 9] := by decide

end Demo

/-! ### C20 -/

/-- Two samples `0, 1` one above the other / side by side, averaged with weights 1/2, 1/2. -/
def C20_fw : FilterWeights ℤ :=
  { weights := [16384, 16384], bounds := [⟨0, 2⟩], kernelSize := 2, alignedSize := 2, distinctElements := 1 }
def C20_col : Image ℕ := { buffer := [0, 1], channels := 1, width := 1, height := 2, stride := 1, bitDepth := 8 }
def C20_row : Image ℕ := { buffer := [0, 1], channels := 1, width := 2, height := 1, stride := 2, bitDepth := 8 }
def C20_dst : Image ℕ := { buffer := [0], channels := 1, width := 1, height := 1, stride := 1, bitDepth := 8 }

/-- **C20 is violated.** The property "the vertical pass rounds to nearest" (the statement of C19 with
`fixRound`, as in C18) is false: the code truncates. The same two samples with the same weights give
1 when they are horizontal neighbours and 0 when they are vertical neighbours. -/
theorem C20_violated :
    ¬ (∀ (src dst : Image ℕ) (fw : FilterWeights ℤ), src.validate 1 = .ok () → dst.validate 1 = .ok () →
      src.width = dst.width → 0 < dst.width → ValidTable fw src.height dst.height →
      (∀ v ∈ src.buffer, v ≤ 255) → NoOverflow fw dst.height 255 →
      ∃ out, verticalFixed 1 255 src dst fw = some out ∧
        ∀ y x, y < dst.height → x < dst.width →
          sample out.buffer (dst.strideOf 1) 1 y x 0 = some (clamp 255 (fixRound
            (wsum (fw.bound y).size (fun k => fw.weight y k)
              (fun k => px src.buffer (src.strideOf 1) 1 ((fw.bound y).start + k) x 0)))))
    ∧ (verticalFixed 1 255 C20_col C20_dst C20_fw).map (·.buffer) = some [0]
    ∧ (horizontalFixed 1 255 C20_row C20_dst C20_fw).map (·.buffer) = some [1] := by
  refine ⟨?_, by decide, by decide⟩
  intro h
  obtain ⟨out, h1, h2⟩ := h C20_col C20_dst C20_fw (by decide) (by decide) (by decide) (by decide)
    (by constructor <;> decide) (by decide) (by intro i hi; have : i < 1 := hi; interval_cases i; decide)
  have e : (verticalFixed 1 255 C20_col C20_dst C20_fw).map (·.buffer) = some [0] := by decide
  rw [h1] at e
  have e : out.buffer = [0] := Option.some.inj e
  have h3 := h2 0 0 (by decide) (by decide)
  rw [e] at h3
  have h4 : wsum (C20_fw.bound 0).size (fun k => C20_fw.weight 0 k)
      (fun k => px C20_col.buffer (C20_col.strideOf 1) 1 ((C20_fw.bound 0).start + k) 0 0) = 16384 := by
    decide
  rw [h4] at h3
  have h5 : fixRound 16384 = 1 := by norm_num [fixRound]
  rw [h5] at h3
  revert h3
  decide

end PicScale
