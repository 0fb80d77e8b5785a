import Verif.Model.Sched
import Verif.Model.X86
import Verif.Model.X86U16
import Verif.Model.X86F32
import Verif.Model.X86Ar30
import Verif.Model.NeonU8
import Verif.Model.NeonU16
import Verif.Model.NeonF32
import Verif.Model.NeonAr30
import Verif.Model.AlphaX86
import Verif.Model.AlphaX86U16
import Verif.Model.AlphaX86F32
import Verif.Model.NeonAlpha
import Verif.Model.NeonAlphaU16
import Verif.Model.NeonAlphaF32

/-! The vector code behind a thread pool. In the source every pass takes `pool: &Option<ThreadPool>` and has two
arms, `if let Some(pool) = pool { … par_chunks … } else { … chunks … }`; the handlers called in the two arms are
the same. The definitions here have that shape: `none` is the sequential arm. -/

namespace PicScale

variable {S A : Type}

/-- The two arms of `convolve_horizontal_dispatch_u8` (`src/dispatch_group_u8.rs:57-99`), `_u16`
(`src/dispatch_group_u16.rs:61-154`), `_f32` (`src/dispatch_group_f32.rs:108-218`), `_ar30`
(`src/dispatch_group_ar30.rs:54-195`). -/
def horizontalOn (E : Option Pool) (N : ℕ) (src dst : Image S)
    (h4 : Option (List S → ℕ → List S → ℕ → Option (List S))) (h1 : List S → List S → Option (List S)) :
    Option (Image S) :=
  match E with
  | none => horizontalDispatch N src dst h4 h1
  | some P => horizontalDispatchPar P N src dst h4 h1

/-- The two arms of `convolve_vertical_dispatch_u8` (`src/dispatch_group_u8.rs:114-160`), `_u16`
(`src/dispatch_group_u16.rs:173-427`), `_f32` (`src/dispatch_group_f32.rs:49-95`), `_ar30`
(`src/dispatch_group_ar30.rs:210-321`). -/
def verticalOn {W : Type} (E : Option Pool) (N : ℕ) (src dst : Image S) (bounds : List Bounds) (alignedSize : ℕ)
    (weights : List W) (handler : Bounds → List S → List S → ℕ → List W → Option (List S)) : Option (Image S) :=
  match E with
  | none => verticalDispatch N src dst bounds alignedSize weights handler
  | some P => verticalDispatchPar P N src dst bounds alignedSize weights handler

/-- The two arms of `resize_nearest`, `src/nearest_sampler.rs:52-101`. -/
def nearestOn (E : Option Pool) (N : ℕ) (src : List S) (srcW srcH : ℕ) (dst : List S) (dstW dstH : ℕ) :
    Option (List S) :=
  match E with
  | none => resizeNearest F32.rnd N src srcW srcH dst dstW dstH
  | some P => resizeNearestPar P F32.rnd N src srcW srcH dst dstW dstH

/-- The two arms of the premultiplications: `src/sse/alpha_u8.rs:241-264`, `src/sse/alpha_u16.rs:267-292`,
`src/sse/alpha_f32.rs:168-192`, `src/avx2/alpha_u8.rs:143-166`, `src/avx2/alpha_u16.rs:381-405`,
`src/avx2/alpha_f32.rs:175-199`, `src/neon/alpha_u8.rs:117-133`, `src/neon/alpha_u16.rs:345-368`,
`src/neon/alpha_f32.rs:74-92`, and of the portable ones. -/
def premultiplyOn (E : Option Pool) (row : List S → List S → Option (List S)) (src dst : Image S) :
    Option (Image S) :=
  match E with
  | none => premultiplyImageWith row src dst
  | some P => do
    let b ← P.run (dst.strideOf 4) (fun drow srow => do
      let d ← slice? drow 0 (src.width * 4)
      let s ← slice? srow 0 (src.width * 4)
      let r ← row d s
      some (r ++ drow.drop (src.width * 4))) dst.buffer (chunksExact (src.strideOf 4) src.buffer)
    some { dst with buffer := b }

/-- The parallel arm of the unpremultiplications. -/
def unpremultiplyPool (P : Pool) (row : List S → Option (List S)) (img : Image S) : Option (Image S) := do
  let b ← P.run (img.strideOf 4) (fun c _ => do
    let d ← slice? c 0 (img.width * 4)
    let r ← row d
    some (r ++ c.drop (img.width * 4))) img.buffer (List.replicate (img.buffer.length / img.strideOf 4) ())
  some { img with buffer := b }

/-- The two arms of the unpremultiplications: `src/sse/alpha_u8.rs:351-370`, `src/sse/alpha_f32.rs:96-110`,
`src/avx2/alpha_u8.rs:331-350`, `src/avx2/alpha_u16.rs:546-559`, `src/avx2/alpha_f32.rs:100-114`,
`src/neon/alpha_u8.rs:247-262`, `src/neon/alpha_u16.rs:577-588`, `src/neon/alpha_f32.rs:116-130`, and of the
portable ones. -/
def unpremultiplyOn (E : Option Pool) (row : List S → Option (List S)) (img : Image S) : Option (Image S) :=
  match E with
  | none => unpremultiplyImageWith row img
  | some P => unpremultiplyPool P row img

/-- `unpremultiply_alpha_sse_rgba_u16_impl`, `src/sse/alpha_u16.rs:199-232`: the `else` arm also says
`par_chunks_exact_mut`, without `install`, so it runs on rayon's global pool `G`. -/
def unpremultiplySse16On (G : Pool) (E : Option Pool) (row : List ℕ → Option (List ℕ)) (img : Image ℕ) :
    Option (Image ℕ) :=
  match E with
  | none => unpremultiplyPool G row img
  | some P => unpremultiplyPool P row img

/-! ### `x86_64` -/

/-- `horizontalX86` with a pool, `src/dispatch_group_u8.rs:44-99`. -/
def horizontalX86On (E : Option Pool) (cpu : Cpu) (k : HKernel) (N : ℕ) (src dst : Image ℕ) (fw : FilterWeights ℤ) :
    Option (Image ℕ) :=
  if cpu.runsH k then
    match k.pixels with
    | none => horizontalOn E N src dst (some fun s ss d ds => rows4Fixed N 255 s ss d ds fw)
        (fun s d => rowFixed N 255 s d fw)
    | some h => horizontalOn E N src dst (some fun s ss d ds => simdRows4 N (h s) ss d ds fw)
        (fun s d => simdRow N (h s) d fw)
  else none

/-- `verticalX86` with a pool, `src/dispatch_group_u8.rs:101-160`. -/
def verticalX86On (E : Option Pool) (cpu : Cpu) (k : VKernel) (N : ℕ) (src dst : Image ℕ) (fw : FilterWeights ℤ) :
    Option (Image ℕ) :=
  if cpu.runsV k then
    verticalOn E N src dst fw.bounds fw.alignedSize fw.weights (fun b s d ss w => k.column b s d ss w)
  else none

/-- `formatX86` (`src/dispatch_group_u8.rs`, `src/plane_u8.rs`, …) with a pool. -/
def formatX86On (E : Option Pool) (cpu : Cpu) (s : Workload) (N : ℕ) : Format ℕ where
  default := 0
  shouldHaveBitDepth := false
  vertical := fun src dst fw =>
    verticalX86On E cpu (selectV cpu s src.height dst.height) N src dst (numericalApproximation F32.rnd fw)
  horizontal := fun src dst fw =>
    horizontalX86On E cpu (selectH cpu s N src.width src.height dst.width dst.height) N src dst
      (numericalApproximation F32.rnd fw)

/-- `formatU16X86` with a pool, `src/dispatch_group_u16.rs:48-427`. -/
def formatU16X86On (E : Option Pool) (cpu : Cpu) (fma fused : Bool) (N : ℕ) : Format ℕ where
  default := 0
  shouldHaveBitDepth := true
  vertical := fun src dst fw =>
    if 12 < dst.bitDepth then
      verticalOn E N src dst fw.bounds fw.alignedSize fw.weights
        (fun b s d ss w => floatColumnX86 cpu fma fused dst.bitDepth b s d ss w)
    else
      let q := numericalApproximation F32.rnd fw
      verticalOn E N src dst q.bounds q.alignedSize q.weights
        (fun b s d ss w => fixedColumnX86 cpu dst.bitDepth b s d ss w)
  horizontal := fun src dst fw =>
    if 12 < dst.bitDepth then
      horizontalOn E N src dst
        (some fun s ss d ds => floatRows4X86 cpu fma fused N dst.bitDepth s ss d ds fw)
        (fun s d => floatRowX86 cpu fma fused N dst.bitDepth s d fw)
    else
      let q := numericalApproximation F32.rnd fw
      horizontalOn E N src dst
        (some fun s ss d ds => fixedRows4X86 cpu N dst.bitDepth s ss d ds q)
        (fun s d => fixedRowX86 cpu N dst.bitDepth s d q)

/-- `formatF32X86` with a pool, `src/dispatch_group_f32.rs:37-218`. -/
def formatF32X86On (E : Option Pool) (cpu : Cpu) (fma fused : Bool) (o : VecOps A) (N : ℕ) : Format A where
  default := o.zero
  shouldHaveBitDepth := false
  vertical := fun src dst fw =>
    verticalOn E N src dst fw.bounds fw.alignedSize fw.weights
      (fun b s d ss w => columnF32X86 cpu fma fused o b s d ss w)
  horizontal := fun src dst fw =>
    horizontalOn E N src dst
      (some fun s ss d ds => rows4F32X86 cpu fma fused o N s ss d ds fw)
      (fun s d => rowF32X86 cpu fma fused o N s d fw)

/-- RGBA8 alpha handling on x86 with a pool (`src/alpha_handle_u8.rs`; handlers as in `alphaX86U8`). -/
def alphaX86U8On (E : Option Pool) (cpu : Cpu) (rcp : ℚ → ℚ) : AlphaOps ℕ where
  isNeeded := (alphaX86U8 cpu rcp).isNeeded
  premultiply :=
    if cpu.avx2 then premultiplyOn E (alphaChunks 32 avxPremulChunk)
    else if cpu.sse41 then premultiplyOn E (alphaChunks 64 ssePremulChunk)
    else premultiplyOn E (alphaRow premultiplyPixel8)
  unpremultiply :=
    if cpu.avx2 then unpremultiplyOn E (alphaChunksInPlace 128 (avxUnpremulChunk rcp))
    else if cpu.sse41 then unpremultiplyOn E (alphaChunksInPlace 64 (sseUnpremulChunk rcp))
    else unpremultiplyOn E (alphaRowInPlace unpremultiplyPixel8)

/-- RGBA16 alpha handling on x86 with a pool (`src/alpha_handle_u16.rs:183-261`); `G` is rayon's global pool. -/
def alphaX86U16On (G : Pool) (E : Option Pool) (cpu : Cpu) (fma : Bool) (rcp : ℚ → ℚ) : AlphaOps ℕ where
  isNeeded := alphaNeededX86U16 cpu
  premultiply := fun src dst =>
    if cpu.avx2 then premultiplyOn E (avxPremulRow16 fma dst.bitDepth) src dst
    else if cpu.sse41 then premultiplyOn E (ssePremulRow16 dst.bitDepth) src dst
    else premultiplyOn E (alphaRow (premultiplyPixel16 (2 ^ dst.bitDepth - 1))) src dst
  unpremultiply := fun img =>
    if cpu.avx2 then unpremultiplyOn E (avxUnpremulRow16 fma rcp img.bitDepth) img
    else if cpu.sse41 then unpremultiplySse16On G E (sseUnpremulRow16 rcp img.bitDepth) img
    else unpremultiplyOn E (alphaRowInPlace (unpremultiplyPixel16 (2 ^ img.bitDepth - 1))) img

/-- RGBA f32 alpha handling on x86 with a pool (`src/alpha_handle_f32.rs:133-200`). -/
def alphaX86F32On (E : Option Pool) (cpu : Cpu) (bits : ℚ → ℕ) : AlphaOps ℚ where
  isNeeded := (alphaF32 F32.rnd bits).isNeeded
  premultiply :=
    if cpu.avx2 then premultiplyOn E (premulRowF 32 (avxChunkF mulps))
    else if cpu.sse41 then premultiplyOn E (premulRowF 16 (sseChunkF mulps))
    else premultiplyOn E (alphaRow (premultiplyPixelF F32.rnd))
  unpremultiply :=
    if cpu.avx2 then unpremultiplyOn E (unpremulRowF 32 (avxChunkF unpremulLanesF))
    else if cpu.sse41 then unpremultiplyOn E (unpremulRowF 16 (sseChunkF unpremulLanesF))
    else unpremultiplyOn E (alphaRowInPlace (unpremultiplyPixelF F32.rnd))

/-! ### `aarch64` -/

/-- `formatNeon` with a pool, `src/dispatch_group_u8.rs:44-160`. -/
def formatNeonOn (E : Option Pool) (rdm : Bool) (s : Workload) (N : ℕ) : Format ℕ where
  default := 0
  shouldHaveBitDepth := false
  vertical := fun src dst fw =>
    let q := numericalApproximation F32.rnd fw
    let k := selectNeonV rdm s src.height dst.height
    verticalOn E N src dst q.bounds q.alignedSize q.weights (fun b s d ss w => k.column b s d ss w)
  horizontal := fun src dst fw =>
    let q := numericalApproximation F32.rnd fw
    match (selectNeonH rdm s N src.width src.height dst.width dst.height).pixels N with
    | none => horizontalOn E N src dst (some fun s ss d ds => rows4Fixed N 255 s ss d ds q)
        (fun s d => rowFixed N 255 s d q)
    | some h => horizontalOn E N src dst (some fun s ss d ds => simdRows4 N (h s) ss d ds q)
        (fun s d => simdRow N (h s) d q)

/-- `formatU16Neon` with a pool, `src/dispatch_group_u16.rs:48-427`. -/
def formatU16NeonOn (E : Option Pool) (half : Bool) (N : ℕ) : Format ℕ where
  default := 0
  shouldHaveBitDepth := true
  vertical := fun src dst fw =>
    if 12 < dst.bitDepth then
      verticalOn E N src dst fw.bounds fw.alignedSize fw.weights
        (fun b s d ss w => neonColumnF32 dst.bitDepth b s d ss w)
    else if half then
      let h := halfWeights fw
      verticalOn E N src dst h.bounds h.alignedSize h.weights
        (fun b s d ss w => neonColumnHalf dst.bitDepth b s d ss w)
    else
      let q := numericalApproximation F32.rnd fw
      verticalOn E N src dst q.bounds q.alignedSize q.weights
        (fun b s d ss w => neonColumnLb dst.bitDepth b s d ss w)
  horizontal := fun src dst fw =>
    if 12 < dst.bitDepth then
      horizontalOn E N src dst
        (some fun s ss d ds => rows4Float (u16Ops F32.rnd true dst.bitDepth) N s ss d ds fw)
        (fun s d => rowFloat (u16Ops F32.rnd true dst.bitDepth) N s d fw)
    else
      let q := numericalApproximation F32.rnd fw
      horizontalOn E N src dst
        (some fun s ss d ds => fixedRows4Neon N dst.bitDepth s ss d ds q)
        (fun s d => fixedRowNeon N dst.bitDepth s d q)

/-- `formatF32Neon` with a pool, `src/dispatch_group_f32.rs:37-218`. -/
def formatF32NeonOn (E : Option Pool) (o : VecOps A) (N : ℕ) : Format A where
  default := o.zero
  shouldHaveBitDepth := false
  vertical := fun src dst fw =>
    verticalOn E N src dst fw.bounds fw.alignedSize fw.weights (fun b s d ss w => neonColumnF o b s d ss w)
  horizontal := fun src dst fw =>
    horizontalOn E N src dst
      (some fun s ss d ds => rows4F32Neon o N src.width s ss d ds fw)
      (fun s d => rowF32Neon o N src.width s d fw)

/-- RGBA8 alpha handling on AArch64 with a pool, `src/neon/alpha_u8.rs:109-133,240-262`. -/
def alphaNeonU8On (E : Option Pool) : AlphaOps ℕ where
  isNeeded := alphaNeonU8.isNeeded
  premultiply := premultiplyOn E premulRowNeon
  unpremultiply := unpremultiplyOn E unpremulRowNeon

/-- RGBA16 alpha handling on AArch64 with a pool, `src/neon/alpha_u16.rs:335-368,567-588`. -/
def alphaNeonU16On (E : Option Pool) (fp16 fp16' : Bool) : AlphaOps ℕ where
  isNeeded := alphaNeededNeonU16
  premultiply := fun src dst => premultiplyOn E (premulRowNeon16 fp16 dst.bitDepth) src dst
  unpremultiply := fun img => unpremultiplyOn E (unpremulRowNeon16 fp16' img.bitDepth) img

/-- RGBA f32 alpha handling on AArch64 with a pool, `src/neon/alpha_f32.rs:66-137`. -/
def alphaNeonF32On (E : Option Pool) (bits : ℚ → ℕ) : AlphaOps ℚ where
  isNeeded := (alphaF32 F32.rnd bits).isNeeded
  premultiply := premultiplyOn E premulRowNeonF
  unpremultiply := unpremultiplyOn E unpremulRowNeonF

/-! ### packed 10 bit -/

/-- `horizontal30X86` with a pool, `src/dispatch_group_ar30.rs:42-195`. -/
def horizontal30X86On (E : Option Pool) (cpu : Cpu) (t : Rgb30) (o : Ar30Order) (src : List ℕ) (srcStride : ℕ)
    (fw : FilterWeights ℚ) (dst : List ℕ) (dstStride : ℕ) : Option (List ℕ) := do
  let approx := numericalApproximation F32.rnd fw
  if cpu.sse41 then
    let d ← horizontalOn E 4 (image30 src 0 0 srcStride) (image30 dst 0 0 dstStride)
      (some fun s ss d ds => simdRows4 4 (ar30Rows4 t o s) ss d ds approx)
      (fun s d => simdRow 4 (ar30Row t o s) d approx)
    some d.buffer
  else
    let d ← horizontalOn E 4 (image30 src 0 0 srcStride) (image30 dst 0 0 dstStride)
      (some fun s ss d ds => rows4_30 ⟨.little, t, o⟩ s ss d ds approx) (fun s d => row30 ⟨.little, t, o⟩ s d approx)
    some d.buffer

/-- `vertical30X86` with a pool, `src/dispatch_group_ar30.rs:197-321`. -/
def vertical30X86On (E : Option Pool) (cpu : Cpu) (t : Rgb30) (o : Ar30Order) (src : List ℕ) (srcStride : ℕ)
    (fw : FilterWeights ℚ) (dst : List ℕ) (dstStride width : ℕ) : Option (List ℕ) := do
  let approx := numericalApproximation F32.rnd fw
  let d ← verticalOn E 4 (image30 src 0 0 srcStride) (image30 dst width 0 dstStride)
    approx.bounds approx.alignedSize approx.weights
    (fun b s d ss w => if cpu.sse41 then sseColumn30 t o b s d ss w else column30 ⟨.little, t, o⟩ b s d ss w)
  some d.buffer

/-- `horizontal30Neon` with a pool, `src/dispatch_group_ar30.rs:42-195`. -/
def horizontal30NeonOn (E : Option Pool) (rdm : Bool) (s : Workload) (t : Rgb30) (o : Ar30Order) (src : List ℕ)
    (srcStride : ℕ) (fw : FilterWeights ℚ) (dst : List ℕ) (dstStride : ℕ) : Option (List ℕ) := do
  let approx := numericalApproximation F32.rnd fw
  let rows4 := fun s' => if useRdm30 rdm s then ar30Rdm t o s' else ar30Neon t o s'
  let d ← horizontalOn E 4 (image30 src 0 0 srcStride) (image30 dst 0 0 dstStride)
    (some fun s' ss d ds => simdRows4 4 (rows4 s') ss d ds approx)
    (fun s' d => simdRow 4 (ar30Neon t o s') d approx)
  some d.buffer

/-- `vertical30Neon` with a pool, `src/dispatch_group_ar30.rs:197-321`. -/
def vertical30NeonOn (E : Option Pool) (rdm : Bool) (s : Workload) (t : Rgb30) (o : Ar30Order) (src : List ℕ)
    (srcStride : ℕ) (fw : FilterWeights ℚ) (dst : List ℕ) (dstStride width : ℕ) : Option (List ℕ) := do
  let approx := numericalApproximation F32.rnd fw
  let d ← verticalOn E 4 (image30 src 0 0 srcStride) (image30 dst width 0 dstStride)
    approx.bounds approx.alignedSize approx.weights
    (fun b s' d ss w => if useRdm30 rdm s then rdmColumn30 t o b s' d ss w else neonColumn30 t o b s' d ss w)
  some d.buffer

/-- `resize_ar30_impl`, `src/resize_ar30.rs:38-167`, with a pool and the two passes of a target. -/
def resize30On (E : Option Pool)
    (vertical : List ℕ → ℕ → FilterWeights ℚ → List ℕ → ℕ → ℕ → Option (List ℕ))
    (horizontal : List ℕ → ℕ → FilterWeights ℚ → List ℕ → ℕ → Option (List ℕ))
    (W : ℕ) (L : Lib) (r : ResamplingFunction) (src dst : Image ℕ) : Option (Except Err Unit × List ℕ) :=
  match check30 W src dst with
  | .error e => some (.error e, dst.buffer)
  | .ok () =>
    if src.width = dst.width ∧ src.height = dst.height then
      some (.ok (), overwrite src.buffer dst.buffer)
    else if r = .nearest then do
      let d ← nearestOn E 4 src.buffer src.stride src.height dst.buffer dst.stride dst.height
      some (.ok (), d)
    else if src.height ≠ dst.height ∧ src.width = dst.width then do
      let vf ← tableOf L r src.height dst.height
      let d ← vertical src.buffer src.stride vf dst.buffer src.stride src.width
      some (.ok (), d)
    else if src.height ≠ dst.height then do
      if W ≤ src.width * dst.height * 4 then none else
      let vf ← tableOf L r src.height dst.height
      let v ← vertical src.buffer src.stride vf (List.replicate (src.width * dst.height * 4) 0) (src.width * 4) src.width
      let hf ← tableOf L r src.width dst.width
      let d ← horizontal v (src.width * 4) hf dst.buffer dst.stride
      some (.ok (), d)
    else do
      let hf ← tableOf L r src.width dst.width
      let d ← horizontal src.buffer src.stride hf dst.buffer dst.stride
      some (.ok (), d)

/-- `resize_ar30_impl`, `src/resize_ar30.rs:38-167`, on `x86_64` under a threading policy. -/
def resize30X86Under (M : Machine) (p : Policy) (cpu : Cpu) (W : ℕ) (t : Rgb30) (o : Ar30Order) (L : Lib)
    (r : ResamplingFunction) (src dst : Image ℕ) : Option (Except Err Unit × List ℕ) :=
  let E := M.poolFor p dst.width dst.height
  resize30On E (vertical30X86On E cpu t o) (horizontal30X86On E cpu t o) W L r src dst

/-- `resize_ar30_impl`, `src/resize_ar30.rs:38-167`, on `aarch64` under a threading policy. -/
def resize30NeonUnder (M : Machine) (p : Policy) (rdm : Bool) (s : Workload) (W : ℕ) (t : Rgb30) (o : Ar30Order)
    (L : Lib) (r : ResamplingFunction) (src dst : Image ℕ) : Option (Except Err Unit × List ℕ) :=
  let E := M.poolFor p dst.width dst.height
  resize30On E (vertical30NeonOn E rdm s t o) (horizontal30NeonOn E rdm s t o) W L r src dst

/-! ### the calls -/

/-- `Scaler::generic_resize`, `src/scaler.rs:571-666`, under a threading policy, for a format given as a function of
the pool. -/
def resizeOn (M : Machine) (p : Policy) (W N : ℕ) (F : Option Pool → Format S) (L : Lib) (r : ResamplingFunction)
    (store into : Image S) : Option (Except Err Unit × Image S) :=
  match M.poolFor p into.width into.height with
  | none => genericResize W N (F none) L r store into
  | some E => genericResizePar E W N (F (some E)) L r store into

/-- `Scaler::generic_resize_with_alpha`, `src/scaler.rs:864-933`, under a threading policy. -/
def resizeAlphaOn (M : Machine) (p : Policy) (W : ℕ) (F : Option Pool → Format S) (A : Option Pool → AlphaOps S)
    (L : Lib) (r : ResamplingFunction) (store into : Image S) (requested : Bool) :
    Option (Except Err Unit × Image S) :=
  match M.poolFor p into.width into.height with
  | none => genericResizeWithAlpha W 4 (F none) (A none) L r store into requested
  | some E => genericResizeWithAlphaPar E W 4 (F (some E)) (A (some E)) L r store into requested

end PicScale
