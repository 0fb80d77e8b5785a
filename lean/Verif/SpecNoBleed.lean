import Verif.SpecAlpha

/-!
RGBA pictures that look the same; no code here.
-/

namespace PicScale.Spec

/-- `b` is `a` with other colours in some of the pixels whose alpha is invisible (`inv`): the same sizes, and every sample
that is not one of the three colours of an invisible pixel of `a` is the same, row padding included. -/
structure DifferInvisibly {S : Type} (inv : S → Prop) (a b : Image S) : Prop where
  header : b.channels = a.channels ∧ b.width = a.width ∧ b.height = a.height ∧ b.stride = a.stride ∧
    b.bitDepth = a.bitDepth
  length : b.buffer.length = a.buffer.length
  same : ∀ p, b.buffer[p]? = a.buffer[p]? ∨
    ∃ y x c, y < a.height ∧ x < a.width ∧ c < 3 ∧ p = y * a.strideOf 4 + x * 4 + c ∧
      ∃ v, sample a.buffer (a.strideOf 4) 4 y x 3 = some v ∧ inv v

/-- Some pixel of the picture is visible. -/
def SomeVisible {S : Type} (inv : S → Prop) (a : Image S) : Prop :=
  ∃ y x v, y < a.height ∧ x < a.width ∧ sample a.buffer (a.strideOf 4) 4 y x 3 = some v ∧ ¬ inv v

end PicScale.Spec
