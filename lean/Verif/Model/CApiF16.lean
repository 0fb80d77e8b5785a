import Verif.Model.CApi

/-!
The C functions on f16 samples, `/repo/picscale/src/lib.rs:743-930`, and the `ImageStoreScaling` implementations they
call (`/repo/src/scaler_f16.rs:154-221`).

A half is its 16 bits (`reprU16`: size and alignment 2). `F` and `A` are the passes and the alpha handlers the
processor selects; `Scaler::new` sets `WorkloadStrategy::default()`, `PreferSpeed` (`src/scaler.rs:200-207, 345`).
The handlers run sequentially here.
-/

namespace PicScale

variable {S : Type}

/-- `ImageStoreScaling::scale` with the options the C interface builds, `src/scaler_f16.rs:154-221`. -/
def cScaleWith (W N : ℕ) (F : ℕ → Format S) (A : AlphaOps S) (L : Lib) (f : CFilter) (flags : ℕ) (store into : Image S) :
    Option (Except Err Unit × Image S) :=
  if N = 4 then
    genericResizeWithAlpha W 4 (F 4) A L f.toResampling store into (decide (flags &&& PIC_SCALE_PREMULTIPLY_ALPHA ≠ 0))
  else genericResize W N (F N) L f.toResampling store into

/-- `pic_scale_resize_{rgba,rgb,cbcr,planar}_f16`, `picscale/src/lib.rs:743-930`: the bit depth is always 16. -/
def picScaleResizeF16 (W N : ℕ) (F : ℕ → Format ℕ) (A : AlphaOps ℕ) (L : Lib)
    (src : Ptr) (srcStride width height : ℕ) (dst : Ptr) (dstStride newWidth newHeight : ℕ) (f : CFilter) (flags : ℕ) :
    Option (ℕ × List ℕ) :=
  cResize reprU16 N (cScaleWith W N F A L f flags) src srcStride width height dst dstStride newWidth newHeight 16

/-- The other exported functions (`picscale/src/lib.rs:208-742`) with the passes `F` and alpha handlers `A` the processor
selects (in `Model/CApi.lean`: the handlers without SIMD); `depth` is 8 for u8, the caller's for u16, 16 for f32. -/
def picScaleResizeWith (R : MemRepr S) (W N : ℕ) (F : ℕ → Format S) (A : AlphaOps S) (L : Lib)
    (src : Ptr) (srcStride width height : ℕ) (dst : Ptr) (dstStride newWidth newHeight depth : ℕ) (f : CFilter) (flags : ℕ) :
    Option (ℕ × List ℕ) :=
  cResize R N (cScaleWith W N F A L f flags) src srcStride width height dst dstStride newWidth newHeight depth

end PicScale
