import Verif.Model.Pass
import Verif.Model.Store
import Verif.Spec

/-!
Vocabulary used in the statements about filter tables and images; no algorithm here.
-/

namespace PicScale

variable {W S : Type}

/-- The window of output coordinate `i`. -/
def FilterWeights.bound (fw : FilterWeights W) (i : Nat) : Bounds := fw.bounds.getD i ⟨0, 0⟩

/-- Weight number `k` of output coordinate `i`. -/
def FilterWeights.weight [Zero W] (fw : FilterWeights W) (i k : Nat) : W :=
  fw.weights.getD (i * fw.alignedSize + k) 0

/-- A filter table for resizing `inn` source coordinates to `out` output coordinates: one window and
one kernel per output coordinate, every window non-empty, inside the source and inside the kernel.
(`generate_weights` produces such tables: theorem `C13_windows_partial`.) -/
structure ValidTable (fw : FilterWeights W) (inn out : Nat) : Prop where
  bounds_len : fw.bounds.length = out
  weights_len : fw.weights.length = out * fw.alignedSize
  aligned_pos : 0 < fw.alignedSize
  size_pos : ∀ i, i < out → 1 ≤ (fw.bound i).size
  size_le : ∀ i, i < out → (fw.bound i).size ≤ fw.alignedSize
  inside : ∀ i, i < out → (fw.bound i).start + (fw.bound i).size ≤ inn

/-- No accumulator of a window can leave `i32` when source samples are at most `M`. -/
def NoOverflow (fw : FilterWeights Int) (out M : Nat) : Prop :=
  ∀ i, i < out → (∑ k ∈ Finset.range (fw.bound i).size, |fw.weight i k|) * M + 2 ^ 14 < 2 ^ 31

/-- Two images agree on everything but the buffer contents. -/
def SameShape (a b : Image S) : Prop :=
  a.width = b.width ∧ a.height = b.height ∧ a.stride = b.stride ∧ a.channels = b.channels ∧
    a.bitDepth = b.bitDepth ∧ a.buffer.length = b.buffer.length

/-- Everything outside the pixels of `a` (row padding) is the same in `b`. -/
def PaddingKept (N : Nat) (a b : Image S) : Prop :=
  ∀ p, ¬ Spec.IsPixelPos (a.strideOf N) N a.width a.height p → b.buffer[p]? = a.buffer[p]?

end PicScale
