import Verif.Model.Store
import Verif.Model.Fixed

/-!
Model of the sequential arms of `src/dispatch_group_u8.rs`, `src/dispatch_group_u16.rs`,
`src/dispatch_group_f32.rs`. The parallel arms run the same row tasks on a pool, see
`Model/Sched.lean`. Handlers are parameters, as in the Rust code.
-/

namespace PicScale

variable {S W : Type}

/-- `convolve_horizontal_dispatch_u8` (`src/dispatch_group_u8.rs:37-97`, the `else` arm),
`convolve_horizontal_dispatch_u16` (`src/dispatch_group_u16.rs:47-157`) and
`convolve_horizontal_dispatch_f32` (`src/dispatch_group_f32.rs:93-218`): groups of four rows by
`h4 src src_stride dst dst_stride` (when there is a 4-row handler), the remainder row by row by
`h1 src dst`. -/
def horizontalDispatch (N : ℕ) (src dst : Image S)
    (h4 : Option (List S → ℕ → List S → ℕ → Option (List S)))
    (h1 : List S → List S → Option (List S)) : Option (Image S) := do
  let ds := dst.strideOf N
  let ss := src.strideOf N
  match h4 with
  | some f =>
    let d ← updChunks (ds * 4) (fun d s => f s ss d ds) dst.buffer (chunksExact (ss * 4) src.buffer)
    let rem := chunksRemainder (ds * 4) d
    let srcRem := chunksRemainder (ss * 4) src.buffer
    let rem' ← updChunks ds (fun d s => h1 s d) rem (chunksExact ss srcRem)
    some { dst with buffer := d.take (d.length / (ds * 4) * (ds * 4)) ++ rem' }
  | none =>
    let d ← updChunks ds (fun d s => h1 s d) dst.buffer (chunksExact ss src.buffer)
    some { dst with buffer := d }

/-- `convolve_vertical_dispatch_u8` (`src/dispatch_group_u8.rs:100-161`),
`convolve_vertical_dispatch_u16` (`src/dispatch_group_u16.rs:159-300` and
`execute_low_precision_row` `:379-end`), `convolve_vertical_dispatch_f32`
(`src/dispatch_group_f32.rs:37-91`): every destination row `y` gets window `bounds[y]` and the
weights from `y * aligned_size` on; only `row[..dst_width * N]` is passed to the handler. `bounds`
and `aligned_size` come from the float table, `weights` from the converted one. -/
def verticalDispatch (N : ℕ) (src dst : Image S) (bounds : List Bounds) (alignedSize : ℕ)
    (weights : List W)
    (handler : Bounds → List S → List S → ℕ → List W → Option (List S)) : Option (Image S) := do
  let ds := dst.strideOf N
  let ss := src.strideOf N
  let d ← updChunks ds (fun row y => do
      let b ← bounds[y]?
      let w ← slice? weights (y * alignedSize) weights.length
      let part ← slice? row 0 (dst.width * N)
      let r ← handler b src.buffer part ss w
      some (r ++ row.drop (dst.width * N))) dst.buffer (List.range (dst.buffer.length / ds))
  some { dst with buffer := d }

/-- The 8-bit passes: `i16` weights, fixed point handlers
(`src/rgba_u8.rs`, `src/plane_u8.rs`, …: scalar fallback of every `HorizontalConvolutionPass`). -/
def horizontalFixed (N hi : ℕ) (src dst : Image ℕ) (fw : FilterWeights ℤ) : Option (Image ℕ) :=
  horizontalDispatch N src dst
    (some fun s ss d ds => rows4Fixed N hi s ss d ds fw) (fun s d => rowFixed N hi s d fw)

/-- Vertical counterpart of `horizontalFixed`. -/
def verticalFixed (N hi : ℕ) (src dst : Image ℕ) (fw : FilterWeights ℤ) : Option (Image ℕ) :=
  verticalDispatch N src dst fw.bounds fw.alignedSize fw.weights
    (fun b s d ss w => columnFixed hi b s d ss w)

end PicScale
