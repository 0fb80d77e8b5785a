import Verif.Model.Resize

/-!
The colour-space scalers, `src/colors/*.rs`.

Nine scalers (`LinearScaler`, `LinearApproxScaler`, `LabScaler`, `LuvScaler`, `LChScaler`, `OklabScaler`,
`JzazbzScaler`, `SigmoidalScaler`, `XYZScaler`) implement `Scaling`. Each `resize_rgb` / `resize_rgba` is the
same program around two conversion functions of the external crate `colorutils_rs`: convert the source into a
temporary image of another colour space, resize that with the ordinary `Scaler`, convert back.

The crate is not part of `/repo`: a conversion is modelled as a function on one pixel, applied to every pixel
of the picture at the positions given by the strides the caller passes (`convertPixels`).
-/

namespace PicScale

variable {A B : Type}

/-- `n as u32` for a `usize` `n`. -/
def toU32 (n : ℕ) : ℕ := n % 2 ^ 32

/-- `a * b` on `u32`; overflow is a panic (as in builds with overflow checks). -/
def mulU32 (a b : ℕ) : Option ℕ := if a * b < 2 ^ 32 then some (a * b) else none

/-- One pixel of a conversion: read `N` samples, convert, write. -/
def convertPixel (N : ℕ) (f : List A → List B) (src : List A) (dst : List B) (a b : ℕ) : Option (List B) := do
  let p ← slice? src a (a + N)
  writeAt? dst b (f p)

/-- A conversion function of `colorutils_rs` (`rgb_to_linear`, `lab_to_srgb`, ... : all take
`src, src_stride, dst, dst_stride, width, height`). Strides are in bytes; `sa`, `sb` are the sizes of a source
and of a destination sample in bytes. Assumed: every pixel is converted on its own, and nothing else is
written; a position outside a buffer is a panic. -/
def convertPixels (N : ℕ) (f : List A → List B) (sa sb : ℕ) (src : List A) (srcStride : ℕ) (dst : List B)
    (dstStride width height : ℕ) : Option (List B) :=
  (List.range height).foldlM (fun dst y =>
    (List.range width).foldlM (fun dst x =>
      convertPixel N f src dst (y * (srcStride / sa) + x * N) (y * (dstStride / sb) + x * N)) dst) dst

/-- What distinguishes one method of one scaler from another: the temporary sample type (its `Default` and
`size_of`), the two conversions, and whether the temporary image takes its bit depth from the source (the
`rgba_to_laba` helpers, e.g. `src/colors/lab_scaler.rs:71`) or from the destination (elsewhere). -/
structure ColorSpace (A B : Type) where
  default : B
  sizeOf : ℕ
  enc : List A → List B
  dec : List B → List A
  depthFromSource : Bool

/-- The part of `resize_rgb` / `resize_rgba` before the inner resize: allocate the temporary image and convert
the source into it. `src/colors/linear_precise_scaler.rs:105-136`, `:182-209`, `lab_scaler.rs:52-74`,
`:128-157` and their copies in the other files. The source stride passed to the conversion is
`store.width as u32 * N`, whatever `store.stride` is. -/
def encodeStage (W N : ℕ) (C : ColorSpace A B) (store into : Image A) : Option (Image B) := do
  let tmp ← tempImage W N C.default store.width store.height into.bitDepth
  let ls ← mulU32 (toU32 store.width) N
  let ls ← mulU32 ls C.sizeOf
  let ss ← mulU32 (toU32 store.width) N
  let b ← convertPixels N C.enc 1 C.sizeOf store.buffer ss tmp.buffer ls (toU32 store.width) (toU32 store.height)
  some { buffer := b, channels := N, width := store.width, height := store.height, stride := store.width * N,
         bitDepth := if C.depthFromSource then store.bitDepth else into.bitDepth }

/-- The part after the inner resize: convert the resized temporary image into the destination.
`src/colors/linear_precise_scaler.rs:142-153`, `:215-226`, `lab_scaler.rs:76-87`, `:163-173` and copies. The
destination stride passed is `into.width as u32 * N`, whatever `into.stride` is. -/
def decodeStage (N : ℕ) (C : ColorSpace A B) (work : Image B) (into : Image A) : Option (Image A) := do
  let ls ← mulU32 (toU32 work.width) N
  let ls ← mulU32 ls C.sizeOf
  let ds ← mulU32 (toU32 into.width) N
  let b ← convertPixels N C.dec C.sizeOf 1 work.buffer ls into.buffer ds (toU32 work.width) (toU32 work.height)
  some { into with buffer := b }

/-- `resize_rgb` (`N = 3`) and `resize_rgba` (`N = 4`) of a colour-space scaler, e.g.
`src/colors/linear_precise_scaler.rs:80-154`, `:156-229`. `inner` is the call
`self.scaler.resize_rgb_f32(&tmp, &mut new_store)` (or its rgba, or u8, variant). The checks are those of
`Scaler::generic_resize` for a format without a bit depth requirement, in the same order. -/
def colorResize (W N : ℕ) (C : ColorSpace A B) (inner : Image B → Image B → Option (Except Err Unit × Image B))
    (store into : Image A) : Option (Except Err Unit × Image A) :=
  match checkResize W N false store into with
  | .error e => some (.error e, into)
  | .ok () =>
    if store.width = into.width ∧ store.height = into.height then do
      let d ← store.copiedToMut N into
      some (.ok (), d)
    else do
      let tmp ← encodeStage W N C store into
      match ← inner tmp (Image.alloc N C.default into.width into.height) with
      | (.error e, _) => some (.error e, into)
      | (.ok (), work) => do
        let d ← decodeStage N C work into
        some (.ok (), d)

/-- The methods of the trait `Scaling` (`src/scaler.rs:60-134`) except `set_threading_policy` (see
`Model/Sched.lean`); `none` is a panic. -/
structure Scaling (A : Type) where
  resizeCbcr8 : Image A → Image A → Option (Except Err Unit × Image A)
  resizeRgb : Image A → Image A → Option (Except Err Unit × Image A)
  resizeRgba : Image A → Image A → Bool → Option (Except Err Unit × Image A)

/-- The plain `Scaler` and its `f32` methods used by the colour scalers (`src/scaler.rs:936-992`): `u8` images
have samples `A`, `f32` images samples `B`. -/
structure InnerScaler (A B : Type) where
  cbcr8 : Image A → Image A → Option (Except Err Unit × Image A)
  rgb8 : Image A → Image A → Option (Except Err Unit × Image A)
  rgba8 : Image A → Image A → Bool → Option (Except Err Unit × Image A)
  rgbF32 : Image B → Image B → Option (Except Err Unit × Image B)
  rgbaF32 : Image B → Image B → Bool → Option (Except Err Unit × Image B)

/-- The `Scaler` itself as an implementation of `Scaling`, `src/scaler.rs:936-965`. -/
def InnerScaler.toScaling (s : InnerScaler A B) : Scaling A where
  resizeCbcr8 := s.cbcr8
  resizeRgb := s.rgb8
  resizeRgba := s.rgba8

/-- The conversions of `colorutils_rs` on one pixel; `T` is `TransferFunction`, `Lum` the luminance argument. -/
structure ColorLib (A B T : Type) where
  srgb : T
  rgbToLinear : T → List A → List B
  linearToRgb : T → List B → List A
  rgbaToLinear : T → List A → List B
  linearToRgba : T → List B → List A
  rgbToLinear8 : T → List A → List A
  linear8ToRgb : T → List A → List A
  rgbaToLinear8 : T → List A → List A
  linear8ToRgba : T → List A → List A
  rgbToLab : List A → List B
  labToRgb : List B → List A
  rgbaToLab : List A → List B
  labToRgba : List B → List A
  rgbToLuv : List A → List B
  luvToRgb : List B → List A
  rgbaToLuv : List A → List B
  luvToRgba : List B → List A
  rgbToLch : List A → List B
  lchToRgb : List B → List A
  rgbaToLch : List A → List B
  lchToRgba : List B → List A
  rgbToOklab : T → List A → List B
  oklabToRgb : T → List B → List A
  rgbaToOklab : T → List A → List B
  oklabToRgba : T → List B → List A
  rgbToJzazbz : ℕ → T → List A → List B
  jzazbzToRgb : ℕ → T → List B → List A
  rgbaToJzazbz : ℕ → T → List A → List B
  jzazbzToRgba : ℕ → T → List B → List A
  rgbToSigmoidal : List A → List B
  sigmoidalToRgb : List B → List A
  rgbaToSigmoidal : List A → List B
  sigmoidalToRgba : List B → List A
  rgbToXyz : List A → List B
  xyzToRgb : List B → List A
  rgbaToXyz : List A → List B
  xyzToRgba : List B → List A

section Scalers
variable {T : Type} (W : ℕ) (K : ColorLib A B T) (s : InnerScaler A B) (d8 : A) (d32 : B)

/-- The scalers' common shape: `resize_cbcr8` is `unimplemented!()` in all nine
(`src/colors/linear_precise_scaler.rs:72-78`, `linear_scaler.rs:72-78`, `lab_scaler.rs:95-101`,
`luv_scaler.rs:59-65`, `lch_scaler.rs:96-102`, `oklab_scaler.rs:59-65`, `jzazbz_scaler.rs:109-115`,
`sigmoidal_scaler.rs:55-61`, `xyz_scaler.rs:59-65`), i.e. a panic. -/
def f32Scaler (rgb rgba : ColorSpace A B) : Scaling A where
  resizeCbcr8 := fun _ _ => none
  resizeRgb := colorResize W 3 rgb s.rgbF32
  resizeRgba := fun store into p => colorResize W 4 rgba (fun a b => s.rgbaF32 a b p) store into

/-- `LinearScaler` with transfer function `t` (`src/colors/linear_precise_scaler.rs:41-229`). `resize_rgb` uses
`t` (`:126`, `:151`); `resize_rgba` uses `TransferFunction::Srgb` (`:199`, `:225`). -/
def linearScaler (t : T) : Scaling A :=
  f32Scaler W s ⟨d32, 4, K.rgbToLinear t, K.linearToRgb t, false⟩
    ⟨d32, 4, K.rgbaToLinear K.srgb, K.linearToRgba K.srgb, false⟩

/-- `LinearApproxScaler` (`src/colors/linear_scaler.rs:41-231`): the temporary images have `u8` samples, and
both methods use the scaler's transfer function (`:126`, `:151`, `:203`, `:228`). -/
def linearApproxScaler (t : T) : Scaling A where
  resizeCbcr8 := fun _ _ => none
  resizeRgb := colorResize W 3 ⟨d8, 1, K.rgbToLinear8 t, K.linear8ToRgb t, false⟩ s.rgb8
  resizeRgba := fun store into p =>
    colorResize W 4 ⟨d8, 1, K.rgbaToLinear8 t, K.linear8ToRgba t, false⟩ (fun a b => s.rgba8 a b p) store into

/-- `LabScaler`, `src/colors/lab_scaler.rs:41-210`. -/
def labScaler : Scaling A :=
  f32Scaler W s ⟨d32, 4, K.rgbToLab, K.labToRgb, false⟩ ⟨d32, 4, K.rgbaToLab, K.labToRgba, true⟩

/-- `LuvScaler`, `src/colors/luv_scaler.rs:42-223`. -/
def luvScaler : Scaling A :=
  f32Scaler W s ⟨d32, 4, K.rgbToLuv, K.luvToRgb, false⟩ ⟨d32, 4, K.rgbaToLuv, K.luvToRgba, false⟩

/-- `LChScaler`, `src/colors/lch_scaler.rs:42-216`. -/
def lchScaler : Scaling A :=
  f32Scaler W s ⟨d32, 4, K.rgbToLch, K.lchToRgb, false⟩ ⟨d32, 4, K.rgbaToLch, K.lchToRgba, true⟩

/-- `OklabScaler`, `src/colors/oklab_scaler.rs:38-219`. -/
def oklabScaler (t : T) : Scaling A :=
  f32Scaler W s ⟨d32, 4, K.rgbToOklab t, K.oklabToRgb t, false⟩ ⟨d32, 4, K.rgbaToOklab t, K.oklabToRgba t, false⟩

/-- `JzazbzScaler`, `src/colors/jzazbz_scaler.rs:40-226`; the display luminance (an `f32`) is an opaque number. -/
def jzazbzScaler (lum : ℕ) (t : T) : Scaling A :=
  f32Scaler W s ⟨d32, 4, K.rgbToJzazbz lum t, K.jzazbzToRgb lum t, false⟩
    ⟨d32, 4, K.rgbaToJzazbz lum t, K.jzazbzToRgba lum t, true⟩

/-- `SigmoidalScaler`, `src/colors/sigmoidal_scaler.rs:38-211`. -/
def sigmoidalScaler : Scaling A :=
  f32Scaler W s ⟨d32, 4, K.rgbToSigmoidal, K.sigmoidalToRgb, false⟩ ⟨d32, 4, K.rgbaToSigmoidal, K.sigmoidalToRgba, false⟩

/-- `XYZScaler`, `src/colors/xyz_scaler.rs:42-219`. -/
def xyzScaler : Scaling A :=
  f32Scaler W s ⟨d32, 4, K.rgbToXyz, K.xyzToRgb, false⟩ ⟨d32, 4, K.rgbaToXyz, K.xyzToRgba, false⟩

end Scalers

/-- A `Scaler` with resampling function `r` as used by the colour scalers, from models of its passes
(`F8`, `Ff`: formats of `u8` and `f32` by channel count; `A8`, `Af`: alpha handling). `src/scaler.rs:936-992`. -/
def innerScaler (W : ℕ) (L : Lib) (r : ResamplingFunction) (F8 : ℕ → Format A) (A8 : AlphaOps A)
    (Ff : ℕ → Format B) (Af : AlphaOps B) : InnerScaler A B where
  cbcr8 := genericResize W 2 (F8 2) L r
  rgb8 := genericResize W 3 (F8 3) L r
  rgba8 := genericResizeWithAlpha W 4 (F8 4) A8 L r
  rgbF32 := genericResize W 3 (Ff 3) L r
  rgbaF32 := genericResizeWithAlpha W 4 (Ff 4) Af L r

end PicScale
