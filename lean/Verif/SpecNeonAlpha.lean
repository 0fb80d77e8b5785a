import Verif.SpecAlphaX86

/-!
Vocabulary for alpha handling on AArch64; no code here.
-/

namespace PicScale.Spec

/-- `v` is the straight colour of premultiplied colour `c` with alpha `a`: `255 c / a` saturated at 255, to
within 5/4; nothing for a transparent pixel; `c` itself for an opaque one. -/
def UnpremultipliedEst (c a v : ℕ) : Prop :=
  (a = 0 → v = 0) ∧ (a = 255 → v = c) ∧ (a ≠ 0 → |(v : ℚ) - min (255 : ℚ) (255 * (c : ℚ) / a)| ≤ 5 / 4)

/-- `work` is a premultiplied copy of `src`: the same size, colours multiplied by alpha and rounded to nearest; in the
first `width / 16 * 16` columns alpha is kept, in the others (a defect) it is multiplied by itself. -/
def PremultipliedCopyNeon (src work : Image ℕ) : Prop :=
  work.width = src.width ∧ work.height = src.height ∧
    ∀ y x, y < src.height → x < src.width →
      (∀ c, c < 3 → pxD 0 work.buffer (work.strideOf 4) 4 y x c =
        roundDiv (pxD 0 src.buffer (src.strideOf 4) 4 y x c * alphaAt src.buffer (src.strideOf 4) y x) 255) ∧
      (x < src.width / 16 * 16 → alphaAt work.buffer (work.strideOf 4) y x = alphaAt src.buffer (src.strideOf 4) y x) ∧
      (¬ x < src.width / 16 * 16 → alphaAt work.buffer (work.strideOf 4) y x =
        roundDiv (alphaAt src.buffer (src.strideOf 4) y x * alphaAt src.buffer (src.strideOf 4) y x) 255)

/-- `v` is colour `c` times alpha `a` over the maximum `M`, to within 51/100 plus one `n`th of the value. -/
def PremultipliedTo (n M c a v : ℕ) : Prop := |(v : ℚ) - (c : ℚ) * a / M| ≤ 51 / 100 + (c : ℚ) * a / M / n

/-- `v` is the straight colour of premultiplied colour `c` with alpha `a`, of maximum `M`: `M c / a` to within 51/100
plus one `n`th of the value; unchanged for a transparent pixel. -/
def UnpremultipliedTo (n M c a v : ℕ) : Prop :=
  (a = 0 → v = c) ∧ (a ≠ 0 → |(v : ℚ) - (M : ℚ) * c / a| ≤ 51 / 100 + (M : ℚ) * c / a / n)

end PicScale.Spec
