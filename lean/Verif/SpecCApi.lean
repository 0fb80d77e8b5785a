import Verif.Model.CApi

/-!
What a call of the C interface means, in terms of the Rust interface and of bytes in memory.
-/

namespace PicScale

variable {S : Type}

/-- The Rust call behind a C call: four-channel images are resized by `resize_with_alpha`. -/
def rustCall (W N : ℕ) (t : PixelTy) (bits : ℚ → ℕ) (L : Lib) (r : ResamplingFunction) (premultiply : Bool)
    (store into : Image t.Sample) : Option (Except Err Unit × Image t.Sample) :=
  if N = 4 then genericResizeWithAlpha W 4 (t.format 4) (t.alpha bits) L r store into premultiply
  else genericResize W N (t.format N) L r store into

/-- What the values of the C enumeration `ScalingFilter` mean. -/
def filterMeaning : CFilter → ResamplingFunction
  | .nearest => ResamplingFunction.nearest
  | .bilinear => ResamplingFunction.bilinear
  | .lanczos3 => ResamplingFunction.lanczos3
  | .mitchellNetravalli => ResamplingFunction.mitchellNetravalli
  | .bicubic => ResamplingFunction.bicubic
  | .catmullRom => ResamplingFunction.catmullRom

/-- Samples have a fixed, positive size in memory. -/
structure MemRepr.Sized (R : MemRepr S) : Prop where
  pos : 0 < R.size
  len : ∀ a, (R.enc a).length = R.size

/-- The bit depth of the images of a C call. -/
def cDepth (t : PixelTy) (bitDepth : ℕ) : ℕ :=
  match t with
  | .u8 => 8
  | .u16 _ => bitDepth
  | .f32 _ => 16

/-- Sample `i` of row `y` is at byte `y * stride + i * size`. -/
def HasRows (R : MemRepr S) (mem : List ℕ) (stride rowLen h : ℕ) (v : ℕ → ℕ → S) : Prop :=
  ∀ y i, y < h → i < rowLen →
    (mem.drop (y * stride + i * R.size)).take R.size = R.enc (v y i) ∧ R.dec (R.enc (v y i)) = v y i

/-- The packed samples of `h` rows. -/
def packedRows (rowLen h : ℕ) (v : ℕ → ℕ → S) : List S :=
  (List.range (rowLen * h)).map fun p => v (p / rowLen) (p % rowLen)

/-- The Rust call behind a C call, for the passes `F` and alpha handlers `A` of a processor. -/
def rustCallWith (W N : ℕ) (F : ℕ → Format S) (A : AlphaOps S) (L : Lib) (r : ResamplingFunction) (premultiply : Bool)
    (store into : Image S) : Option (Except Err Unit × Image S) :=
  if N = 4 then genericResizeWithAlpha W 4 (F 4) A L r store into premultiply else genericResize W N (F N) L r store into

/-- What an aligned C call must do: the code of the Rust call's result, its samples in the destination rows, the bytes
behind the rows (`dr`) as they were; with a code other than 0 the whole memory as it was. -/
def LikeRust (R : MemRepr S) (c : Option (ℕ × List ℕ)) (rust : Option (Except Err Unit × Image S)) (mem dr : List ℕ) :
    Prop :=
  ∃ res out, rust = some (res, out) ∧ c = some (mapErrorCode res, out.buffer.flatMap R.enc ++ dr) ∧
    (mapErrorCode res ≠ 0 → out.buffer.flatMap R.enc ++ dr = mem)

end PicScale
