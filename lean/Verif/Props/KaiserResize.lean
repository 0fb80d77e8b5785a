import Verif.Props.Kaiser
import Verif.Props.Taps
import Verif.Props.VectorRange

/-!
Hamming, Hanning, Gaussian and Kaiser among the averaging filters: instances of C16, C115, C29 and C257 with a
mathematical library that keeps its bounds.
-/

namespace PicScale

open F32 Spec

/-- C16, C115: non-negative weights, no overflow, for windows of thousands of taps. -/
example : ∀ r ∈ averagingLibm, (∃ fw, generateWeights F32.rnd (filterOf F32.rnd Demo.libm r) 10000 3 = some fw ∧
      ∀ w ∈ fw.weights, 0 ≤ w) ∧
    ∃ q, IsTable Demo.libm r 10000 3 q ∧ NoOverflow q 3 255 ∧ NoOverflow30At q 3 4095 := by
  intro r hr
  have ha : r = .area → (3 : ℕ) ≤ 2 ^ 22 := fun _ => by norm_num
  have hv : Averages Demo.libm r := Or.inr ⟨hr, Demo.libmBounds⟩
  obtain ⟨fw, e, _⟩ := table_exists Demo.libm r (inn := 10000) (out := 3) (by norm_num) (by norm_num) ha
  refine ⟨C16_nonneg_partial _ _ hv _ _ (by norm_num) (by norm_num) ha, _, ⟨fw, e, rfl⟩, ?_, ?_⟩
  · exact (C115_no_overflow hv (by norm_num) (by norm_num) ha ⟨fw, e, rfl⟩ (by norm_num)).1
  · exact (C115_no_overflow hv (by norm_num) (by norm_num) ha ⟨fw, e, rfl⟩ (by norm_num)).2

/-- C29: a brighter row stays brighter with Kaiser. -/
example : ∃ out out', genericResize (2 ^ 64) 1 (formatU8 1) Demo.libm .kaiser Demo.row6a Demo.row3z = some (.ok (), out) ∧
    genericResize (2 ^ 64) 1 (formatU8 1) Demo.libm .kaiser ⟨[9, 200, 0, 255, 1, 0], 1, 6, 1, 6, 8⟩ Demo.row3z =
      some (.ok (), out') ∧ ∀ x, x < 3 → px out.buffer 3 1 0 x 0 ≤ px out'.buffer 3 1 0 x 0 := by
  have hv : Averages Demo.libm .kaiser := Or.inr ⟨by decide, Demo.libmBounds⟩
  have a1 : AcceptedCall (2 ^ 64) 1 .kaiser Demo.row6a Demo.row3z := by constructor <;> decide
  have a2 : AcceptedCall (2 ^ 64) 1 .kaiser ⟨[9, 200, 0, 255, 1, 0], 1, 6, 1, 6, 8⟩ Demo.row3z := by constructor <;> decide
  have b1 : ∀ v ∈ Demo.row6a.buffer, v ≤ 255 := by decide
  have b2 : ∀ v ∈ [9, 200, 0, 255, 1, 0], v ≤ 255 := by decide
  obtain ⟨_, _, out, _, _, o, _⟩ := C115_resize_u8 hv a1 b1
  obtain ⟨_, _, out', _, _, o', _⟩ := C115_resize_u8 hv a2 b2
  refine ⟨out, out', o, o', fun x hx => ?_⟩
  exact C29_monotone hv (a1.u8 hv b1) (a2.u8 hv b2) ⟨rfl, rfl⟩
    (fun y x c hy hx hc => by
      revert y x c
      show ∀ y x c, y < 1 → x < 6 → c < 1 → _
      intro y x c hy hx hc
      obtain rfl : y = 0 := by omega
      obtain rfl : c = 0 := by omega
      revert x; decide) o o' 0 x 0 (by decide) hx (by decide)

/-- C257 applies to Kaiser: its hypothesis on the filter. -/
example : Fades Demo.libm .kaiser := Or.inr ⟨rfl, Demo.libmBounds⟩

end PicScale
