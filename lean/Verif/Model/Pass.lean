import Verif.Model.Slices

/-!
The parts of the convolution code shared by the fixed point and the floating point handlers:
`FilterWeights`/`FilterBounds` (`src/filter_weights.rs`), loading colour groups
(`src/color_group.rs`), and the loop skeletons, which are the same text in
`src/fixed_point_horizontal.rs` and `src/floating_point_horizontal.rs`.

`S` is the sample type, `A` the accumulator type, `W` the weight type. `ColorGroup<CHANNELS, J>` is
the list of its `CHANNELS` meaningful components (simplification: the fields beyond `CHANNELS` are
never stored).
-/

namespace PicScale

/-- `FilterBounds`, `src/filter_weights.rs:42-51`. -/
structure Bounds where
  start : Nat
  size : Nat
  deriving DecidableEq, Repr

/-- `FilterWeights<T>`, `src/filter_weights.rs:32-39` (`coeffs_size` is write-only, omitted). -/
structure FilterWeights (W : Type) where
  weights : List W
  bounds : List Bounds
  kernelSize : Nat
  alignedSize : Nat
  distinctElements : Nat
  deriving DecidableEq, Repr

variable {S A W α β : Type}

/-- `load_color_group!` (offset 0) and `load_color_group_with_offset!`,
`src/color_group.rs:467-539`; `unimplemented!()` outside 1..4 channels. `conv` is `.as_()`. -/
def loadGroup (conv : S → A) (N : Nat) (s : List S) (off : Nat) : Option (List A) :=
  if 1 ≤ N ∧ N ≤ 4 then (slice? s off (off + N)).map (·.map conv) else none

/-- The general branch of the single row handlers: fold over
`weights.iter().zip(src_ptr0.chunks_exact(CHANNELS)).take(bounds.size)`
(`src/fixed_point_horizontal.rs:118-127`, `src/floating_point_horizontal.rs:157-168`).
`step acc px w` is `sums += px * w` resp. `sums.mul_add(px, w)`. -/
def groupFold (conv : S → A) (step : List A → List A → W → List A) (init : List A) (N : Nat)
    (src : List S) (px : Nat) (weights : List W) (size : Nat) : Option (List A) := do
  let s ← slice? src px (px + size * N)
  ((weights.zip (chunksExact N s)).take size).foldlM
    (fun acc kc => do
      let p ← loadGroup conv N kc.2 0
      some (step acc p kc.1)) init

/-- The general branch of the 4-row handlers (`src/fixed_point_horizontal.rs:295-323` and its
floating point copy): one loop over the weights zipped with the chunks of the four rows. -/
def groupFold4 (conv : S → A) (step : List A → List A → W → List A) (init : List A) (N : Nat)
    (src : List S) (srcStride px : Nat) (weights : List W) (size : Nat) :
    Option (List A × List A × List A × List A) := do
  let s0 ← slice? src px (px + size * N)
  let s1 ← slice? src (px + srcStride) (px + srcStride + size * N)
  let s2 ← slice? src (px + srcStride * 2) (px + srcStride * 2 + size * N)
  let s3 ← slice? src (px + srcStride * 3) (px + srcStride * 3 + size * N)
  ((((weights.zip (chunksExact N s0)).zip (chunksExact N s1)).zip (chunksExact N s2)).zip
      (chunksExact N s3) |>.take size).foldlM
    (fun acc e => do
      let w := e.1.1.1.1
      let p0 ← loadGroup conv N e.1.1.1.2 0
      let p1 ← loadGroup conv N e.1.1.2 0
      let p2 ← loadGroup conv N e.1.2 0
      let p3 ← loadGroup conv N e.2 0
      some (step acc.1 p0 w, step acc.2.1 p1 w, step acc.2.2.1 p2 w, step acc.2.2.2 p3 w))
    (init, init, init, init)

/-- The single row loop, `src/fixed_point_horizontal.rs:57-135`,
`src/floating_point_horizontal.rs:62-172`. `pix weights bounds` is the loop body up to the sums,
`fin` narrows one accumulator to a sample. -/
def rowPass (N : Nat) (pix : List W → Bounds → Option (List A)) (fin : A → S) (dst : List S)
    (fw : FilterWeights W) : Option (List S) :=
  updChunks N (fun _ bw => do
    let sums ← pix bw.2 bw.1
    some (sums.map fin)) dst
    (fw.bounds.zip (chunksExact fw.alignedSize fw.weights))

/-- Rust loop over four zipped `chunks_exact_mut(n)` iterators and `xs`
(`src/fixed_point_horizontal.rs:166-181`, `src/floating_point_horizontal.rs:205-219`): stops when
any of the five ends. -/
def updChunks4 (n : Nat) (f : β → Option (List α × List α × List α × List α)) :
    List α → List α → List α → List α → List β → Option (List α × List α × List α × List α)
  | d0, d1, d2, d3, [] => some (d0, d1, d2, d3)
  | d0, d1, d2, d3, x :: xs =>
    if d0.length < n ∨ d1.length < n ∨ d2.length < n ∨ d3.length < n then some (d0, d1, d2, d3)
    else do
      let (c0, c1, c2, c3) ← f x
      let (r0, r1, r2, r3) ← updChunks4 n f (d0.drop n) (d1.drop n) (d2.drop n) (d3.drop n) xs
      some (c0 ++ r0, c1 ++ r1, c2 ++ r2, c3 ++ r3)

/-- The 4-row loop, `src/fixed_point_horizontal.rs:157-335`,
`src/floating_point_horizontal.rs:196-end`. `dst` holds four rows; `split_at_mut` panics if `dst` is
shorter than `3 * dst_stride`. -/
def rows4Pass (N : Nat) (pix4 : List W → Bounds → Option (List A × List A × List A × List A))
    (fin : A → S) (dst : List S) (dstStride : Nat) (fw : FilterWeights W) : Option (List S) := do
  let row0 ← slice? dst 0 dstStride
  let row1 ← slice? dst dstStride (dstStride * 2)
  let row2 ← slice? dst (dstStride * 2) (dstStride * 3)
  let row3 ← slice? dst (dstStride * 3) dst.length
  let (r0, r1, r2, r3) ← updChunks4 N (fun bw => do
      let (s0, s1, s2, s3) ← pix4 bw.2 bw.1
      some (s0.map fin, s1.map fin, s2.map fin, s3.map fin))
    row0 row1 row2 row3 (fw.bounds.zip (chunksExact fw.alignedSize fw.weights))
  some (r0 ++ r1 ++ r2 ++ r3)

/-- Rust `while cx + margin < total { dst = body(cx, dst); cx += step; }`. The fuel argument bounds
the number of iterations; callers pass `total`, which is enough because every loop has
`step ≥ 1` (proved: `whileBlocks_spec` in `Lemmas/Pass.lean`). -/
def whileBlocks (margin step total : Nat) (body : Nat → List α → Option (List α)) :
    Nat → Nat → List α → Option (Nat × List α)
  | 0, cx, dst => some (cx, dst)
  | fuel + 1, cx, dst =>
    if cx + margin < total then do
      let d ← body cx dst
      whileBlocks margin step total body fuel (cx + step) d
    else some (cx, dst)

end PicScale
