import Verif.SpecAlpha

/-!
Vocabulary for alpha handling with vector instructions; no code here.
-/

namespace PicScale.Spec

/-- `v` is colour `c` times alpha `a` over 255, to within 43/85 (a correctly rounded value is within 42/85:
255 is odd, so quotients are never halfway). -/
def Premultiplied (c a v : ℕ) : Prop := |(v : ℚ) - (c : ℚ) * a / 255| ≤ 43 / 85

/-- `v` is the straight colour of premultiplied colour `c` with alpha `a`: `255 c / a` saturated at 255, to
within 3/5; nothing for a transparent pixel; `c` itself for an opaque one. -/
def Unpremultiplied (c a v : ℕ) : Prop :=
  (a = 0 → v = 0) ∧ (a = 255 → v = c) ∧ (a ≠ 0 → |(v : ℚ) - min (255 : ℚ) (255 * (c : ℚ) / a)| ≤ 3 / 5)

/-- What Intel and AMD document about the reciprocal instruction: the relative error is at most
`1.5 * 2^-12`. Stated for the integers an alpha can be. -/
def ReciprocalInstruction (rcp : ℚ → ℚ) : Prop :=
  ∀ n : ℕ, 1 ≤ n → n ≤ 65535 → |rcp n * n - 1| ≤ 3 / 2 ^ 13

/-- `work` is a premultiplied copy of `src`: the same size, colours multiplied by alpha, and alpha kept, or (a
defect of some handlers) multiplied by itself. -/
def PremultipliedCopy (alphaKept : Bool) (src work : Image ℕ) : Prop :=
  work.width = src.width ∧ work.height = src.height ∧
    ∀ y x, y < src.height → x < src.width →
      (∀ c, c < 3 → Premultiplied (pxD 0 src.buffer (src.strideOf 4) 4 y x c) (alphaAt src.buffer (src.strideOf 4) y x)
        (pxD 0 work.buffer (work.strideOf 4) 4 y x c)) ∧
      (alphaKept = true → alphaAt work.buffer (work.strideOf 4) y x = alphaAt src.buffer (src.strideOf 4) y x) ∧
      (alphaKept = false → Premultiplied (alphaAt src.buffer (src.strideOf 4) y x)
        (alphaAt src.buffer (src.strideOf 4) y x) (alphaAt work.buffer (work.strideOf 4) y x))

/-- `v` is colour `c` times alpha `a` over the maximum `M`, to within 51/100. -/
def Premultiplied16 (M c a v : ℕ) : Prop := |(v : ℚ) - (c : ℚ) * a / M| ≤ 51 / 100

/-- `v` is the straight colour of premultiplied colour `c` with alpha `a`, of maximum `M`: `M c / a` to within
101/100 plus 1/2048 of the value (the reciprocal instruction has 11 good bits); unchanged for a transparent pixel. -/
def Unpremultiplied16 (M c a v : ℕ) : Prop :=
  (a = 0 → v = c) ∧ (a ≠ 0 → |(v : ℚ) - (M : ℚ) * c / a| ≤ 101 / 100 + (M : ℚ) * c / a / 2048)

/-- All samples of the image fit its depth. -/
def FitsDepth (depth : ℕ) (img : Image ℕ) : Prop := ∀ v ∈ img.buffer, v ≤ 2 ^ depth - 1

end PicScale.Spec
