import Verif.Model.X86
import Verif.Model.Neon

/-!
Which handlers the 8-bit passes use on aarch64 with NEON and the default features (which include
`rdm`): `src/plane_u8.rs`, `src/cbcr8.rs`, `src/rgb_u8.rs`, `src/rgba_u8.rs`, and the resulting `Format`.
-/

namespace PicScale

/-- The horizontal NEON handlers; `full D` are the `rgba_u8.rs`, `rgb_u8.rs`, `plane_u8.rs` ones. -/
inductive NeonH
  | scalar
  | full (D : Bool)
  | rdm
  deriving DecidableEq, Repr

/-- The vertical NEON handlers. -/
inductive NeonV
  | full (D : Bool)
  | rdm
  deriving DecidableEq, Repr

/-- The horizontal handler: `src/plane_u8.rs:59,65-93` (the ratio of the *heights*),
`src/cbcr8.rs:53,59-73`, `src/rgb_u8.rs:58,65-89`, `src/rgba_u8.rs:65,71-97`. `rdm` is
`is_aarch_rdm_supported()`. -/
def selectNeonH (rdm : Bool) (s : Workload) (N sw sh dw dh : ℕ) : NeonH :=
  match N with
  | 1 =>
    match s with
    | .preferQuality => .full true
    | .preferSpeed => if below8 sh dh ∧ rdm then .rdm else .full false
  | 2 => if below8 sw dw ∧ rdm ∧ s = .preferSpeed then .rdm else .scalar
  | _ =>
    match s with
    | .preferQuality => .full true
    | .preferSpeed => if below8 sw dw ∧ rdm then .rdm else .full false

/-- The vertical handler, the same text in the four files: `src/plane_u8.rs:131-158`,
`src/cbcr8.rs:108-137`, `src/rgb_u8.rs:128-156`, `src/rgba_u8.rs:152-180`. -/
def selectNeonV (rdm : Bool) (s : Workload) (sh dh : ℕ) : NeonV :=
  match s with
  | .preferQuality => .full true
  | .preferSpeed => if below8 sh dh ∧ rdm then .rdm else .full false

/-- The pixel function of a NEON handler for `N` channels (there is no full precision NEON handler for
two channels). -/
def NeonH.pixels (N : ℕ) : NeonH → Option (List ℕ → List ℕ → List ℤ → Bounds → Option (List (List ℕ)))
  | .scalar => none
  | .full D =>
    match N with
    | 1 => some (planeNeon D)
    | 2 => none
    | 3 => some (rgbNeon D)
    | _ => some (rgbaNeon D)
  | .rdm =>
    match N with
    | 1 => some planeRdm
    | 2 => some cbcrRdm
    | 3 => some rgbRdm
    | _ => some rgbaRdm

/-- The column function of a vertical handler: `convolve_vertical_neon_i32_precision_d` is `<true, 16>`,
`convolve_vertical_neon_i32_precision` `<false, 15>` (`src/neon/vertical_u8.rs:94-116`). -/
def NeonV.column : NeonV → Bounds → List ℕ → List ℕ → ℕ → List ℤ → Option (List ℕ)
  | .full D => neonColumn D
  | .rdm => neonRdmColumn

/-- The horizontal pass (quantised weights). -/
def horizontalNeon (k : NeonH) (N : ℕ) (src dst : Image ℕ) (fw : FilterWeights ℤ) : Option (Image ℕ) :=
  match k.pixels N with
  | none => horizontalFixed N 255 src dst fw
  | some h => horizontalSimd N h src dst fw

/-- The vertical pass (quantised weights). -/
def verticalNeon (k : NeonV) (N : ℕ) (src dst : Image ℕ) (fw : FilterWeights ℤ) : Option (Image ℕ) :=
  verticalDispatch N src dst fw.bounds fw.alignedSize fw.weights (fun b s d ss w => k.column b s d ss w)

/-- 8-bit images on aarch64. -/
def formatNeon (rdm : Bool) (s : Workload) (N : ℕ) : Format ℕ where
  default := 0
  shouldHaveBitDepth := false
  vertical := fun src dst fw =>
    verticalNeon (selectNeonV rdm s src.height dst.height) N src dst (numericalApproximation F32.rnd fw)
  horizontal := fun src dst fw =>
    horizontalNeon (selectNeonH rdm s N src.width src.height dst.width dst.height) N src dst
      (numericalApproximation F32.rnd fw)

end PicScale
