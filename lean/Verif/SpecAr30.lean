import Verif.SpecResize
import Verif.Model.Ar30

/-!
What the 10-bit packed pixel formats mean, by arithmetic; the code works with shifts and masks.
-/

namespace PicScale

/-- Is the most significant byte of a pixel stored first? Always in network order; in host order it
depends on the machine. -/
def Fmt30.bigFirst (F : Fmt30) : Bool := decide (F.order = .network ∨ F.endian = .big)

end PicScale

namespace PicScale.Spec

/-- The 32-bit number stored in the bytes `b 0, b 1, b 2, b 3`. -/
def word30 (bigFirst : Bool) (b : ℕ → ℕ) : ℕ :=
  if bigFirst then b 0 * 2 ^ 24 + b 1 * 2 ^ 16 + b 2 * 2 ^ 8 + b 3
  else b 3 * 2 ^ 24 + b 2 * 2 ^ 16 + b 1 * 2 ^ 8 + b 0

/-- Bit position of component `c` (0 red, 1 green, 2 blue, 3 alpha). AR30 is 2 bits of alpha, then
blue, green, red from the top; RA30 is red, green, blue, then 2 bits of alpha. -/
def shift30 (t : Rgb30) (c : ℕ) : ℕ :=
  match t with
  | .ar30 => 10 * c
  | .ra30 => if c = 0 then 22 else if c = 1 then 12 else if c = 2 then 2 else 0

/-- Component `c` of a packed pixel: 10 bits, alpha 2 bits. -/
def comp30 (t : Rgb30) (c w : ℕ) : ℕ := w / 2 ^ shift30 t c % (if c = 3 then 4 else 1024)

/-- Component `c` of pixel `(x, y)` of a byte buffer with rows every `stride` bytes. -/
def pix30 (F : Fmt30) (buf : List ℕ) (stride y x c : ℕ) : ℕ :=
  comp30 F.ty c (word30 F.bigFirst fun i => buf.getD (y * stride + x * 4 + i) 0)

end PicScale.Spec
