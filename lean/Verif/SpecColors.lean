import Verif.SpecResize
import Verif.SpecTable

/-!
Vocabulary for the colour-space scalers: whole pixels of a picture; no code here.
-/

namespace PicScale.Spec

/-- The `N` samples of pixel `(x, y)`. -/
def pixelAt {S : Type} (buf : List S) (stride N y x : ℕ) : List S := (buf.drop (y * stride + x * N)).take N

/-- The packed picture obtained by converting every pixel of `img` with `f`. -/
def mapPicture {A B : Type} (N : ℕ) (f : List A → List B) (img : Image A) (depth : ℕ) : Image B :=
  { buffer := (List.range img.height).flatMap fun y => (List.range img.width).flatMap fun x =>
      f (pixelAt img.buffer (img.strideOf N) N y x)
    channels := N, width := img.width, height := img.height, stride := img.width * N, bitDepth := depth }

/-- `f` turns pixels of `N` samples into pixels of `N` samples. -/
def KeepsLength {A B : Type} (N : ℕ) (f : List A → List B) : Prop := ∀ p, p.length = N → (f p).length = N

/-- The same buffer read as if rows were not padded. -/
def unpadded {S : Type} (N : ℕ) (img : Image S) : Image S := { img with stride := img.width * N }

end PicScale.Spec

namespace PicScale.Spec

/-- The call `method store into` succeeds, and every pixel of the result is `dec` of the pixel of `work`, where
`work` is what `plain` (an ordinary resize) makes of the picture `store` with every pixel converted by `enc`. The
rest of the destination (row padding) is kept. `depth` is the bit depth field of the converted picture. -/
def ResizesVia {A B : Type} (N : ℕ) (enc : List A → List B) (dec : List B → List A)
    (plain : Image B → Image B → Option (Except Err Unit × Image B))
    (method : Image A → Image A → Option (Except Err Unit × Image A)) (zero : B) (depth : ℕ) (store into : Image A) : Prop :=
  ∃ work out,
    plain (mapPicture N enc store depth) (Image.alloc N zero into.width into.height) = some (.ok (), work) ∧
    method store into = some (.ok (), out) ∧ SameShape out into ∧ PaddingKept N into out ∧
    ∀ y x, y < into.height → x < into.width →
      pixelAt out.buffer (into.strideOf N) N y x = dec (pixelAt work.buffer (into.width * N) N y x)

end PicScale.Spec
