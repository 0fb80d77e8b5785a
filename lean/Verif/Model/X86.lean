import Verif.Model.Resize
import Verif.Model.SimdHorizontal

/-!
Which handlers the 8-bit passes use on `x86_64` with the default features (`sse`, `avx`, no
`nightly_avx512`): `src/plane_u8.rs`, `src/cbcr8.rs`, `src/rgb_u8.rs`, `src/rgba_u8.rs`, and the
resulting `Format`.

The CPU is what `is_x86_feature_detected!` reports. Running a handler whose instructions the CPU does
not have is `none` here (undefined behaviour in Rust, an illegal instruction in practice).
-/

namespace PicScale

/-- `is_x86_feature_detected!("sse4.1")` and `is_x86_feature_detected!("avx2")`. -/
structure Cpu where
  sse41 : Bool
  avx2 : Bool
  deriving DecidableEq, Repr

/-- `WorkloadStrategy`, `src/scaler.rs:200-207` (the default is `PreferSpeed`). -/
inductive Workload
  | preferQuality
  | preferSpeed
  deriving DecidableEq, Repr

/-- The horizontal handlers; `scalar` is `handle_fixed_row_u8`/`handle_fixed_rows_4_u8`. -/
inductive HKernel
  | scalar | planeSse | planeSseHrs | cbcrSseHrs | rgbSse | rgbAvx | rgbaSse | rgbaSseLb | rgbaAvxLb
  deriving DecidableEq, Repr

/-- The vertical handlers; `scalar` is `handle_fixed_column_u8`. -/
inductive VKernel
  | scalar | sse | avx | sseLp | avxLp
  deriving DecidableEq, Repr

/-- The handlers compiled with `#[target_feature(enable = "avx2")]`. -/
def HKernel.needsAvx2 : HKernel → Bool
  | .rgbAvx => true
  | .rgbaAvxLb => true
  | _ => false
/-- The handlers compiled with `#[target_feature(enable = "sse4.1")]`. -/
def HKernel.needsSse41 : HKernel → Bool
  | .scalar => false
  | .rgbAvx => false
  | .rgbaAvxLb => false
  | _ => true
/-- The handlers compiled with `#[target_feature(enable = "avx2")]`. -/
def VKernel.needsAvx2 : VKernel → Bool
  | .avx => true
  | .avxLp => true
  | _ => false
/-- The handlers compiled with `#[target_feature(enable = "sse4.1")]`. -/
def VKernel.needsSse41 : VKernel → Bool
  | .sse => true
  | .sseLp => true
  | _ => false

/-- The CPU can run the handler. -/
def Cpu.runsH (cpu : Cpu) (k : HKernel) : Bool :=
  (!k.needsAvx2 || cpu.avx2) && (!k.needsSse41 || cpu.sse41)
/-- The CPU can run the handler. -/
def Cpu.runsV (cpu : Cpu) (k : VKernel) : Bool :=
  (!k.needsAvx2 || cpu.avx2) && (!k.needsSse41 || cpu.sse41)

/-- `_scale_factor < 8.` with `_scale_factor = a as f32 / b as f32`. -/
def below8 (a b : ℕ) : Bool := decide (F32.div (F32.ofNat a) (F32.ofNat b) < 8)

/-- The horizontal handler for an `N`-channel source of size `sw × sh` and a destination of size
`dw × dh`. `src/plane_u8.rs:59,94-108` (the ratio of the *heights*), `src/cbcr8.rs:53,75-87`,
`src/rgb_u8.rs:91-106`, `src/rgba_u8.rs:65,98-122` (AVX2 code also when AVX2 was not detected, if
the ratio is below 8: `:115`). -/
def selectH (cpu : Cpu) (s : Workload) (N sw sh dw dh : ℕ) : HKernel :=
  match N with
  | 1 =>
    if cpu.sse41 then
      if below8 sh dh ∧ s = .preferSpeed then .planeSseHrs else .planeSse
    else .scalar
  | 2 => if cpu.sse41 ∧ below8 sw dw ∧ s = .preferSpeed then .cbcrSseHrs else .scalar
  | 3 => if cpu.avx2 then .rgbAvx else if cpu.sse41 then .rgbSse else .scalar
  | _ =>
    if (cpu.avx2 ∨ below8 sw dw) ∧ s = .preferSpeed then .rgbaAvxLb
    else if cpu.sse41 then
      if below8 sw dw ∧ s = .preferSpeed then .rgbaSseLb else .rgbaSse
    else .scalar

/-- The vertical handler, the same text in the four files: `src/plane_u8.rs:131,159-183`,
`src/cbcr8.rs:108,138-161`, `src/rgb_u8.rs:128,157-180`, `src/rgba_u8.rs:152,181-204`. -/
def selectV (cpu : Cpu) (s : Workload) (sh dh : ℕ) : VKernel :=
  if cpu.avx2 then
    if below8 sh dh ∧ s = .preferSpeed then .avxLp else .avx
  else if cpu.sse41 then
    if below8 sh dh ∧ s = .preferSpeed then .sseLp else .sse
  else .scalar

/-- The pixel function of a vector handler. -/
def HKernel.pixels : HKernel → Option (List ℕ → List ℕ → List ℤ → Bounds → Option (List (List ℕ)))
  | .scalar => none
  | .planeSse => some PicScale.planeSse
  | .planeSseHrs => some PicScale.planeSseHrs
  | .cbcrSseHrs => some PicScale.cbcrSseHrs
  | .rgbSse => some PicScale.rgbSse
  | .rgbAvx => some PicScale.rgbAvx
  | .rgbaSse => some PicScale.rgbaSse
  | .rgbaSseLb => some PicScale.rgbaSseLb
  | .rgbaAvxLb => some PicScale.rgbaAvxLb

/-- `convolve_horizontal_dispatch_u8` with a pair of vector handlers. -/
def horizontalSimd (N : ℕ) (h : List ℕ → List ℕ → List ℤ → Bounds → Option (List (List ℕ)))
    (src dst : Image ℕ) (fw : FilterWeights ℤ) : Option (Image ℕ) :=
  horizontalDispatch N src dst
    (some fun s ss d ds => simdRows4 N (h s) ss d ds fw) (fun s d => simdRow N (h s) d fw)

/-- The horizontal pass with handler `k` (quantised weights). -/
def horizontalX86 (cpu : Cpu) (k : HKernel) (N : ℕ) (src dst : Image ℕ) (fw : FilterWeights ℤ) :
    Option (Image ℕ) :=
  if cpu.runsH k then
    match k.pixels with
    | none => horizontalFixed N 255 src dst fw
    | some h => horizontalSimd N h src dst fw
  else none

/-- The column function of a vertical handler. -/
def VKernel.column : VKernel → Bounds → List ℕ → List ℕ → ℕ → List ℤ → Option (List ℕ)
  | .scalar => columnFixed 255
  | .sse => sseColumn
  | .avx => avxColumn
  | .sseLp => sseColumnLp
  | .avxLp => avxColumnLp

/-- The vertical pass with handler `k` (quantised weights). -/
def verticalX86 (cpu : Cpu) (k : VKernel) (N : ℕ) (src dst : Image ℕ) (fw : FilterWeights ℤ) :
    Option (Image ℕ) :=
  if cpu.runsV k then
    verticalDispatch N src dst fw.bounds fw.alignedSize fw.weights
      (fun b s d ss w => k.column b s d ss w)
  else none

/-- 8-bit images on x86: the passes select their handlers from the image sizes. -/
def formatX86 (cpu : Cpu) (s : Workload) (N : ℕ) : Format ℕ where
  default := 0
  shouldHaveBitDepth := false
  vertical := fun src dst fw =>
    verticalX86 cpu (selectV cpu s src.height dst.height) N src dst (numericalApproximation F32.rnd fw)
  horizontal := fun src dst fw =>
    horizontalX86 cpu (selectH cpu s N src.width src.height dst.width dst.height) N src dst
      (numericalApproximation F32.rnd fw)

end PicScale
