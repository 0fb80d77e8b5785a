import Verif.Model.Store

/-!
When the f32 vertical pass on AArch64 stays inside its source; no code here.
-/

namespace PicScale.Spec

/-- The vertical pass reads rows in blocks; when five to seven samples are left over it reads eight. So either
no such remainder occurs, or the rows have room for reading up to the next multiple of eight. -/
def EightReadable {S : Type} (N : Nat) (img : Image S) : Prop :=
  (img.width * N) % 8 ≤ 4 ∨ (img.width * N + 7) / 8 * 8 ≤ img.strideOf N

/-- The height is kept (no vertical pass), or the source can be read in eights. -/
def NeonSafe {S : Type} (N : Nat) (store into : Image S) : Prop :=
  store.height ≠ into.height → EightReadable N store

end PicScale.Spec
