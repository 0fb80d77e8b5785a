import Verif.Model.Formats
import Verif.Model.Alpha
import Verif.Model.Ar30
import Mathlib.Logic.Relation

/-!
The parallel arms: `dst.par_chunks_exact_mut(n).zip(xs).for_each(f)` on a rayon pool.

A row task is a program that reads and writes elements of its own chunk (`&mut [T]` of `n` elements)
one at a time; source image, weights and bounds are immutable captures, so they are part of the
program. The pool is the set of all interleavings of the element accesses of all tasks: whatever
splitting and stealing rayon does, and on however many threads, is one of them (memory is sequentially
consistent here; the tasks are race free, see `C27_race_free`, so weaker memory models give the same
executions). A panicking task makes the whole call panic.
-/

namespace PicScale

variable {α β S : Type}

/-- What a task still has to do. Indices are relative to its chunk. -/
inductive Prog (α : Type) where
  | done
  | panic
  | read (i : ℕ) (k : α → Prog α)
  | write (i : ℕ) (v : α) (k : Prog α)

/-- Run a program alone on a chunk; an access outside the chunk panics. -/
def Prog.run : Prog α → List α → Option (List α)
  | .done, c => some c
  | .panic, _ => none
  | .read i k, c => match c[i]? with
    | some v => (k v).run c
    | none => none
  | .write i v k, c => if i < c.length then k.run (c.set i v) else none

/-- Memory of the destination and the remaining program of every task. -/
structure PoolState (α : Type) where
  mem : List α
  tasks : List (Prog α)

/-- One step of the pool: some task `t` performs its next access in chunk `t`, i.e. at address
`t * n + i`. -/
inductive PoolStep (n : ℕ) : PoolState α → PoolState α → Prop
  | read (s : PoolState α) (t i : ℕ) (k : α → Prog α) (v : α) (ht : s.tasks[t]? = some (.read i k)) (hi : i < n)
      (hv : s.mem[t * n + i]? = some v) : PoolStep n s { s with tasks := s.tasks.set t (k v) }
  | readPanic (s : PoolState α) (t i : ℕ) (k : α → Prog α) (ht : s.tasks[t]? = some (.read i k)) (hi : ¬ i < n) :
      PoolStep n s { s with tasks := s.tasks.set t .panic }
  | write (s : PoolState α) (t i : ℕ) (v : α) (k : Prog α) (ht : s.tasks[t]? = some (.write i v k)) (hi : i < n) :
      PoolStep n s { mem := s.mem.set (t * n + i) v, tasks := s.tasks.set t k }
  | writePanic (s : PoolState α) (t i : ℕ) (v : α) (k : Prog α) (ht : s.tasks[t]? = some (.write i v k))
      (hi : ¬ i < n) : PoolStep n s { s with tasks := s.tasks.set t .panic }

/-- `ps` are programs for the closures `f _ xs[0], f _ xs[1], …`, one per chunk
(`par_chunks_exact_mut(n)` of `len` elements zipped with `xs`). -/
def Implements (n : ℕ) (f : List α → β → Option (List α)) (len : ℕ) (xs : List β) (ps : List (Prog α)) : Prop :=
  ps.length = min (len / n) xs.length ∧
    ∀ (t : ℕ) (p : Prog α) (x : β), ps[t]? = some p → xs[t]? = some x → ∀ c : List α, c.length = n → p.run c = f c x

/-- `out` is a possible outcome of `buf.par_chunks_exact_mut(n).zip(xs).for_each(f)`: for some way of
writing the closures as programs and some schedule, either all tasks finished and `out` is the memory,
or a task panicked (`none`). -/
def ParOutcome (n : ℕ) (f : List α → β → Option (List α)) (buf : List α) (xs : List β)
    (out : Option (List α)) : Prop :=
  ∃ ps s, Implements n f buf.length xs ps ∧ Relation.ReflTransGen (PoolStep n) ⟨buf, ps⟩ s ∧
    (((∀ p ∈ s.tasks, p = .done) ∧ out = some s.mem) ∨ (.panic ∈ s.tasks ∧ out = none))

/-- A closure that, given a chunk of `n` elements, leaves `n` elements (a `&mut [T]` cannot grow). -/
def KeepsLength (n : ℕ) (f : List α → β → Option (List α)) : Prop :=
  ∀ c x r, c.length = n → f c x = some r → r.length = n

/-- A pool: it runs each parallel loop somehow. -/
structure Pool where
  run : {α β : Type} → ℕ → (List α → β → Option (List α)) → List α → List β → Option (List α)

/-- The pool runs every loop according to some schedule. (Chunk size 0 panics in rayon as in the
sequential iterators; it does not occur.) -/
def Pool.Valid (E : Pool) : Prop :=
  ∀ {α β : Type} (n : ℕ) (f : List α → β → Option (List α)) (buf : List α) (xs : List β), 0 < n →
    KeepsLength n f → ParOutcome n f buf xs (E.run n f buf xs)

/-! ### the parallel arms of the code -/

/-- `convolve_horizontal_dispatch_u8`, `src/dispatch_group_u8.rs:57-78`;
`convolve_horizontal_dispatch_u16`, `src/dispatch_group_u16.rs:61-107`;
`convolve_horizontal_dispatch_f32`, `src/dispatch_group_f32.rs:108-166`: the `if let Some(pool)` arm. -/
def horizontalDispatchPar (E : Pool) (N : ℕ) (src dst : Image S)
    (h4 : Option (List S → ℕ → List S → ℕ → Option (List S)))
    (h1 : List S → List S → Option (List S)) : Option (Image S) := do
  let ds := dst.strideOf N
  let ss := src.strideOf N
  match h4 with
  | some f =>
    let d ← E.run (ds * 4) (fun d s => f s ss d ds) dst.buffer (chunksExact (ss * 4) src.buffer)
    let rem := chunksRemainder (ds * 4) d
    let srcRem := chunksRemainder (ss * 4) src.buffer
    let rem' ← E.run ds (fun d s => h1 s d) rem (chunksExact ss srcRem)
    some { dst with buffer := d.take (d.length / (ds * 4) * (ds * 4)) ++ rem' }
  | none =>
    let d ← E.run ds (fun d s => h1 s d) dst.buffer (chunksExact ss src.buffer)
    some { dst with buffer := d }

/-- The parallel arms of `convolve_vertical_dispatch_u8` (`src/dispatch_group_u8.rs:114-137`),
`…_u16` (`src/dispatch_group_u16.rs:173-230`), `…_f32` (`src/dispatch_group_f32.rs:49-71`). -/
def verticalDispatchPar {W : Type} (E : Pool) (N : ℕ) (src dst : Image S) (bounds : List Bounds) (alignedSize : ℕ)
    (weights : List W)
    (handler : Bounds → List S → List S → ℕ → List W → Option (List S)) : Option (Image S) := do
  let ds := dst.strideOf N
  let ss := src.strideOf N
  let d ← E.run ds (fun row y => do
      let b ← bounds[y]?
      let w ← slice? weights (y * alignedSize) weights.length
      let part ← slice? row 0 (dst.width * N)
      let r ← handler b src.buffer part ss w
      some (r ++ row.drop (dst.width * N))) dst.buffer (List.range (dst.buffer.length / ds))
  some { dst with buffer := d }

/-- The parallel arm of `resize_nearest`, `src/nearest_sampler.rs:52-74`. -/
def resizeNearestPar (E : Pool) (ρ : ℚ → ℚ) (N : ℕ) (src : List S) (srcW srcH : ℕ) (dst : List S)
    (dstW dstH : ℕ) : Option (List S) :=
  E.run (dstW * N) (fun row y => nearestRow ρ N src srcW srcH dstW dstH y row) dst
    (List.range (dst.length / (dstW * N)))

/-- Parallel `premultiply_alpha_rgba_impl` (`src/alpha_handle_u8.rs:68-76`,
`src/alpha_handle_u16.rs:131-143`, `src/alpha_handle_f32.rs:88-96`). -/
def premultiplyImagePar (E : Pool) (op : List S → Option (List S)) (src dst : Image S) : Option (Image S) := do
  let b ← E.run (dst.strideOf 4) (fun drow srow => do
    let d ← slice? drow 0 (src.width * 4)
    let s ← slice? srow 0 (src.width * 4)
    let r ← alphaRow op d s
    some (r ++ drow.drop (src.width * 4))) dst.buffer (chunksExact (src.strideOf 4) src.buffer)
  some { dst with buffer := b }

/-- Parallel `unpremultiply_alpha_rgba_impl` (`src/alpha_handle_u8.rs:124-131`,
`src/alpha_handle_u16.rs:161-168`, `src/alpha_handle_f32.rs:112-119`). -/
def unpremultiplyImagePar (E : Pool) (op : List S → Option (List S)) (img : Image S) : Option (Image S) := do
  let b ← E.run (img.strideOf 4) (fun row _ => do
    let d ← slice? row 0 (img.width * 4)
    let r ← alphaRowInPlace op d
    some (r ++ row.drop (img.width * 4))) img.buffer (List.replicate (img.buffer.length / img.strideOf 4) ())
  some { img with buffer := b }

/-- `formatU8` on a pool. -/
def formatU8Par (E : Pool) (N : ℕ) : Format ℕ where
  default := 0
  shouldHaveBitDepth := false
  vertical := fun src dst fw =>
    let q := numericalApproximation F32.rnd fw
    verticalDispatchPar E N src dst q.bounds q.alignedSize q.weights (fun b s d ss w => columnFixed 255 b s d ss w)
  horizontal := fun src dst fw =>
    let q := numericalApproximation F32.rnd fw
    horizontalDispatchPar E N src dst (some fun s ss d ds => rows4Fixed N 255 s ss d ds q) (fun s d => rowFixed N 255 s d q)

/-- `formatFloat` on a pool. -/
def formatFloatPar {A : Type} (E : Pool) (o : FloatOps S A) (d0 : S) (N : ℕ) : Format S where
  default := d0
  shouldHaveBitDepth := false
  vertical := fun src dst fw =>
    verticalDispatchPar E N src dst fw.bounds fw.alignedSize fw.weights (fun b s d ss w => columnFloat o b s d ss w)
  horizontal := fun src dst fw =>
    horizontalDispatchPar E N src dst (some fun s ss d ds => rows4Float o N s ss d ds fw) (fun s d => rowFloat o N s d fw)

/-- `formatU16` on a pool. -/
def formatU16Par (E : Pool) (fused : Bool) (N : ℕ) : Format ℕ where
  default := 0
  shouldHaveBitDepth := true
  vertical := fun src dst fw =>
    if 12 < dst.bitDepth then
      let o := u16Ops F32.rnd fused dst.bitDepth
      verticalDispatchPar E N src dst fw.bounds fw.alignedSize fw.weights (fun b s d ss w => columnFloat o b s d ss w)
    else
      let q := numericalApproximation F32.rnd fw
      let hi := 2 ^ dst.bitDepth - 1
      verticalDispatchPar E N src dst q.bounds q.alignedSize q.weights (fun b s d ss w => columnFixed hi b s d ss w)
  horizontal := fun src dst fw =>
    if 12 < dst.bitDepth then
      let o := u16Ops F32.rnd fused dst.bitDepth
      horizontalDispatchPar E N src dst (some fun s ss d ds => rows4Float o N s ss d ds fw) (fun s d => rowFloat o N s d fw)
    else
      let q := numericalApproximation F32.rnd fw
      let hi := 2 ^ dst.bitDepth - 1
      horizontalDispatchPar E N src dst (some fun s ss d ds => rows4Fixed N hi s ss d ds q) (fun s d => rowFixed N hi s d q)

/-- `alphaU8` on a pool. -/
def alphaU8Par (E : Pool) : AlphaOps ℕ where
  isNeeded := alphaU8.isNeeded
  premultiply := premultiplyImagePar E premultiplyPixel8
  unpremultiply := unpremultiplyImagePar E unpremultiplyPixel8

/-- `alphaU16` on a pool. -/
def alphaU16Par (E : Pool) : AlphaOps ℕ where
  isNeeded := alphaU16.isNeeded
  premultiply := fun src dst => premultiplyImagePar E (premultiplyPixel16 (2 ^ dst.bitDepth - 1)) src dst
  unpremultiply := fun img => unpremultiplyImagePar E (unpremultiplyPixel16 (2 ^ img.bitDepth - 1)) img

/-- `alphaF32` on a pool. -/
def alphaF32Par (E : Pool) (ρ : ℚ → ℚ) (bits : ℚ → ℕ) : AlphaOps ℚ where
  isNeeded := (alphaF32 ρ bits).isNeeded
  premultiply := premultiplyImagePar E (premultiplyPixelF ρ)
  unpremultiply := unpremultiplyImagePar E (unpremultiplyPixelF ρ)

/-- `Scaler::generic_resize`, `src/scaler.rs:571-666`, with a pool: `F` is the format on that pool. -/
def genericResizePar (E : Pool) (W N : ℕ) (F : Format S) (L : Lib) (r : ResamplingFunction)
    (store into : Image S) : Option (Except Err Unit × Image S) :=
  match checkResize W N F.shouldHaveBitDepth store into with
  | .error e => some (.error e, into)
  | .ok () =>
    if store.width = into.width ∧ store.height = into.height then do
      let d ← store.copiedToMut N into
      some (.ok (), d)
    else if r = .nearest then do
      let b ← resizeNearestPar E F32.rnd N store.buffer store.width store.height into.buffer into.width into.height
      some (.ok (), { into with buffer := b })
    else do
      let d ← convolve W N F (tableOf L r) store into
      some (.ok (), d)

/-- `Scaler::generic_resize_with_alpha`, `src/scaler.rs:864-933`, with a pool. -/
def genericResizeWithAlphaPar (E : Pool) (W N : ℕ) (F : Format S) (A : AlphaOps S) (L : Lib) (r : ResamplingFunction)
    (store into : Image S) (requested : Bool) : Option (Except Err Unit × Image S) :=
  match checkResize W N F.shouldHaveBitDepth store into with
  | .error e => some (.error e, into)
  | .ok () =>
    if store.width = into.width ∧ store.height = into.height then do
      let d ← store.copiedToMut N into
      some (.ok (), d)
    else if r = .nearest then do
      let b ← resizeNearestPar E F32.rnd N store.buffer store.width store.height into.buffer into.width into.height
      some (.ok (), { into with buffer := b })
    else do
      let src ← premultiplied W N F A requested store into
      let d ← convolve W N F (tableOf L r) src into
      if requested = true then do
        let d ← A.unpremultiply d
        some (.ok (), d)
      else some (.ok (), d)

/-- The parallel arm of `convolve_horizontal_dispatch_ar30`, `src/dispatch_group_ar30.rs:54-126`. -/
def horizontal30Par (E : Pool) (F : Fmt30) (src : List ℕ) (srcStride : ℕ) (fw : FilterWeights ℚ) (dst : List ℕ)
    (dstStride : ℕ) : Option (List ℕ) := do
  let approx := numericalApproximation F32.rnd fw
  let d ← horizontalDispatchPar E 4 (image30 src 0 0 srcStride) (image30 dst 0 0 dstStride)
    (some fun s ss d ds => rows4_30 F s ss d ds approx) (fun s d => row30 F s d approx)
  some d.buffer

/-- The parallel arm of `convolve_vertical_dispatch_ar30`, `src/dispatch_group_ar30.rs:210-267`. -/
def vertical30Par (E : Pool) (F : Fmt30) (src : List ℕ) (srcStride : ℕ) (fw : FilterWeights ℚ) (dst : List ℕ)
    (dstStride width : ℕ) : Option (List ℕ) := do
  let approx := numericalApproximation F32.rnd fw
  let d ← verticalDispatchPar E 4 (image30 src 0 0 srcStride) (image30 dst width 0 dstStride)
    approx.bounds approx.alignedSize approx.weights (fun b s d ss w => column30 F b s d ss w)
  some d.buffer

/-- `resize_ar30_impl`, `src/resize_ar30.rs:38-167`, with a pool. -/
def resize30Par (E : Pool) (W : ℕ) (F : Fmt30) (L : Lib) (r : ResamplingFunction) (src dst : Image ℕ) :
    Option (Except Err Unit × List ℕ) :=
  match check30 W src dst with
  | .error e => some (.error e, dst.buffer)
  | .ok () =>
    if src.width = dst.width ∧ src.height = dst.height then
      some (.ok (), overwrite src.buffer dst.buffer)
    else if r = .nearest then do
      let d ← resizeNearestPar E F32.rnd 4 src.buffer src.stride src.height dst.buffer dst.stride dst.height
      some (.ok (), d)
    else if src.height ≠ dst.height ∧ src.width = dst.width then do
      let vf ← tableOf L r src.height dst.height
      let d ← vertical30Par E F src.buffer src.stride vf dst.buffer src.stride src.width
      some (.ok (), d)
    else if src.height ≠ dst.height then do
      if W ≤ src.width * dst.height * 4 then none else
      let vf ← tableOf L r src.height dst.height
      let t ← vertical30Par E F src.buffer src.stride vf (List.replicate (src.width * dst.height * 4) 0)
        (src.width * 4) src.width
      let hf ← tableOf L r src.width dst.width
      let d ← horizontal30Par E F t (src.width * 4) hf dst.buffer dst.stride
      some (.ok (), d)
    else do
      let hf ← tableOf L r src.width dst.width
      let d ← horizontal30Par E F src.buffer src.stride hf dst.buffer dst.stride
      some (.ok (), d)

/-! ### choosing the pool -/

/-- A build on a machine with `avail` hardware threads (`available_parallelism`); `poolOk w h` says
whether building the pool for a `w × h` destination succeeded; `pool n` is a pool of `n` threads. -/
structure Machine where
  avail : ℕ
  poolOk : ℕ → ℕ → Bool
  pool : ℕ → Pool

/-- `self.threading_policy.get_pool(into size)`, `src/scaler.rs:608-610`, `:904-906`. -/
def Machine.poolFor (M : Machine) (p : Policy) (w h : ℕ) : Option Pool :=
  (p.getPool M.avail (M.poolOk w h) w h).map M.pool

/-- The sample types of `generic_resize`: u8, u16, f32. -/
inductive PixelTy where
  | u8
  | u16 (fused : Bool)
  | f32 (fused : Bool)

/-- Rust type of one sample; finite `f32` are rationals. -/
abbrev PixelTy.Sample : PixelTy → Type
  | .u8 => ℕ
  | .u16 _ => ℕ
  | .f32 _ => ℚ

/-- The trait implementations, run on the calling thread. -/
def PixelTy.format (t : PixelTy) (N : ℕ) : Format t.Sample :=
  match t with
  | .u8 => formatU8 N
  | .u16 fused => formatU16 fused N
  | .f32 fused => formatFloat (f32Ops F32.rnd fused) 0 N

/-- The trait implementations, run on a pool. -/
def PixelTy.formatPar (t : PixelTy) (E : Pool) (N : ℕ) : Format t.Sample :=
  match t with
  | .u8 => formatU8Par E N
  | .u16 fused => formatU16Par E fused N
  | .f32 fused => formatFloatPar E (f32Ops F32.rnd fused) 0 N

/-- Alpha handling on the calling thread; `bits` is `f32::to_bits`. -/
def PixelTy.alpha (t : PixelTy) (bits : ℚ → ℕ) : AlphaOps t.Sample :=
  match t with
  | .u8 => alphaU8
  | .u16 _ => alphaU16
  | .f32 _ => alphaF32 F32.rnd bits

/-- Alpha handling on a pool. -/
def PixelTy.alphaPar (t : PixelTy) (E : Pool) (bits : ℚ → ℕ) : AlphaOps t.Sample :=
  match t with
  | .u8 => alphaU8Par E
  | .u16 _ => alphaU16Par E
  | .f32 _ => alphaF32Par E F32.rnd bits

/-- `generic_resize` under a threading policy. -/
def resizeUnder (M : Machine) (p : Policy) (W N : ℕ) (t : PixelTy) (L : Lib) (r : ResamplingFunction)
    (store into : Image t.Sample) : Option (Except Err Unit × Image t.Sample) :=
  match M.poolFor p into.width into.height with
  | none => genericResize W N (t.format N) L r store into
  | some E => genericResizePar E W N (t.formatPar E N) L r store into

/-- `generic_resize_with_alpha` under a threading policy (RGBA). -/
def resizeAlphaUnder (M : Machine) (p : Policy) (W : ℕ) (t : PixelTy) (bits : ℚ → ℕ) (L : Lib)
    (r : ResamplingFunction) (store into : Image t.Sample) (requested : Bool) : Option (Except Err Unit × Image t.Sample) :=
  match M.poolFor p into.width into.height with
  | none => genericResizeWithAlpha W 4 (t.format 4) (t.alpha bits) L r store into requested
  | some E => genericResizeWithAlphaPar E W 4 (t.formatPar E 4) (t.alphaPar E bits) L r store into requested

/-- `resize_ar30_impl` under a threading policy. -/
def resize30Under (M : Machine) (p : Policy) (W : ℕ) (F : Fmt30) (L : Lib) (r : ResamplingFunction)
    (src dst : Image ℕ) : Option (Except Err Unit × List ℕ) :=
  match M.poolFor p dst.width dst.height with
  | none => resize30 W F L r src dst
  | some E => resize30Par E W F L r src dst

end PicScale
