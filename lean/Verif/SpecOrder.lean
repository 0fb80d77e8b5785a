import Verif.SpecResize
import Mathlib.Data.Rat.Defs
import Mathlib.Algebra.Order.Ring.Rat

/-!
Comparing two pictures of floating point samples; no code here.
-/

namespace PicScale.Spec

/-- The two pictures have the same size, and corresponding samples are related by `R`. -/
structure Related (R : ℚ → ℚ → Prop) (N : ℕ) (store store' : Image ℚ) : Prop where
  width : store.width = store'.width
  height : store.height = store'.height
  samples : ∀ y x c, y < store.height → x < store.width → c < N →
    R (pxD 0 store.buffer (store.strideOf N) N y x c) (pxD 0 store'.buffer (store'.strideOf N) N y x c)

end PicScale.Spec
