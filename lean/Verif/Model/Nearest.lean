import Verif.Model.Slices
import Verif.Model.F32

/-! `src/nearest_sampler.rs` (the sequential arm; the parallel arm runs the same closure per row). -/

namespace PicScale

/-- `src_x` / `src_y`, `src/nearest_sampler.rs:81-86`, with scale and clip of lines 43-47. `ρ` is the
rounding after each operation: `F32.rnd` is the code. -/
def nearestIndex (ρ : ℚ → ℚ) (srcSize dstSize i : ℕ) : ℕ :=
  let scale := ρ (ρ srcSize / ρ dstSize)
  let clip := ρ (ρ srcSize - 1)
  F32.toUsize ⌊max (min (ρ (ρ (ρ (ρ i + 1 / 2) * scale) - 1 / 2)) clip) 0⌋

/-- One destination row, `src/nearest_sampler.rs:79-96`. -/
def nearestRow {α : Type} (ρ : ℚ → ℚ) (N : ℕ) (src : List α) (srcW srcH dstW dstH y : ℕ)
    (row : List α) : Option (List α) :=
  updChunks N (fun px x => do
    let sx := nearestIndex ρ srcW dstW x
    let sy := nearestIndex ρ srcH dstH y
    let offset := sy * (srcW * N) + sx * N
    let s ← slice? src offset (offset + N)
    some (overwrite s px)) row (List.range (row.length / N))

/-- `resize_nearest`, `src/nearest_sampler.rs:34-99`: rows are `chunks_exact_mut(dst_width * N)` of the
whole destination buffer; strides of the images play no role. -/
def resizeNearest {α : Type} (ρ : ℚ → ℚ) (N : ℕ) (src : List α) (srcW srcH : ℕ) (dst : List α)
    (dstW dstH : ℕ) : Option (List α) :=
  updChunks (dstW * N) (fun row y => nearestRow ρ N src srcW srcH dstW dstH y row) dst
    (List.range (dst.length / (dstW * N)))

end PicScale
