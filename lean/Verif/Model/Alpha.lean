import Verif.Model.Resize

/-!
Alpha handling, scalar paths: `src/alpha_handle_u8.rs`, `src/alpha_handle_u16.rs`,
`src/alpha_handle_f32.rs`, `src/alpha_check.rs`, and the trait implementations in
`src/image_store.rs:526-735`. The thread pool variants run the same row function on the same rows
(see `Model/Sched.lean`); the SIMD variants are in `Model/AlphaX86.lean`.
-/

namespace PicScale

variable {S : Type}

/-- One RGBA pixel through a colour function (of colour and alpha) and an alpha function: the body of
every loop below has this form, with `dst[0]`, `dst[1]`, `dst[2]` treated alike. -/
def pixelOp (col : S → S → S) (alp : S → S) : List S → Option (List S)
  | [r, g, b, a] => some [col r a, col g a, col b a, alp a]
  | _ => none

/-- `for (dst, src) in dst.chunks_exact_mut(4).zip(src.chunks_exact(4)) { dst = op(src) }`
(`alpha_handle_u8.rs:52-58`, `alpha_handle_u16.rs:70-103`, `alpha_handle_f32.rs:65-79`). -/
def alphaRow (op : List S → Option (List S)) (dst src : List S) : Option (List S) :=
  updChunks 4 (fun _ s => op s) dst (chunksExact 4 src)

/-- `for dst in in_place.chunks_exact_mut(4) { dst = op(dst) }`
(`alpha_handle_u8.rs:110-116`, `alpha_handle_u16.rs:107-118`, `alpha_handle_f32.rs:41-61`). -/
def alphaRowInPlace (op : List S → Option (List S)) (row : List S) : Option (List S) :=
  updChunks 4 (fun d _ => op d) row (List.replicate (row.length / 4) ())

/-- `premultiply_alpha_rgba_impl` (`alpha_handle_u8.rs:59-83`, `alpha_handle_u16.rs:121-149`,
`alpha_handle_f32.rs:82-108`): rows of both images zipped, `dst[..width * 4]`, `src[..width * 4]`, for any
row function (the vector versions are the same text: `src/sse/alpha_u8.rs:231-264`,
`src/avx2/alpha_u8.rs:133-166`). -/
def alphaRowsWith (row : List S → List S → Option (List S)) (dst : List S) (dstStride : ℕ) (src : List S)
    (width srcStride : ℕ) : Option (List S) :=
  updChunks dstStride (fun drow srow => do
    let d ← slice? drow 0 (width * 4)
    let s ← slice? srow 0 (width * 4)
    let r ← row d s
    some (r ++ drow.drop (width * 4))) dst (chunksExact srcStride src)

/-- `unpremultiply_alpha_rgba_impl` (`alpha_handle_u8.rs:117-135`, `alpha_handle_u16.rs:151-172`,
`alpha_handle_f32.rs:110-130`; vector versions `src/sse/alpha_u8.rs:343-370`,
`src/avx2/alpha_u8.rs:323-350`): `row[..width * 4]` of every row in place. -/
def alphaRowsInPlaceWith (row : List S → Option (List S)) (buf : List S) (width stride : ℕ) :
    Option (List S) :=
  updChunks stride (fun r _ => do
    let d ← slice? r 0 (width * 4)
    let o ← row d
    some (o ++ r.drop (width * 4))) buf (List.replicate (buf.length / stride) ())

/-- `AssociateAlpha::premultiply_alpha` for a row function (`src/image_store.rs:527-541`, `:604-619`,
`:660-674`): the width is that of the source. -/
def premultiplyImageWith (row : List S → List S → Option (List S)) (src dst : Image S) : Option (Image S) := do
  let b ← alphaRowsWith row dst.buffer (dst.strideOf 4) src.buffer src.width (src.strideOf 4)
  some { dst with buffer := b }

/-- `UnassociateAlpha::unpremultiply_alpha` for a row function (`src/image_store.rs:594-600`,
`:702-716`, `:718-724`). -/
def unpremultiplyImageWith (row : List S → Option (List S)) (img : Image S) : Option (Image S) := do
  let b ← alphaRowsInPlaceWith row img.buffer img.width (img.strideOf 4)
  some { img with buffer := b }

/-- The scalar `premultiply_alpha` for a pixel operation. -/
def premultiplyImage (op : List S → Option (List S)) (src dst : Image S) : Option (Image S) :=
  premultiplyImageWith (alphaRow op) src dst

/-- The scalar `unpremultiply_alpha` for a pixel operation. -/
def unpremultiplyImage (op : List S → Option (List S)) (img : Image S) : Option (Image S) :=
  unpremultiplyImageWith (alphaRowInPlace op) img

/-! ### alpha check -/

/-- One row of `has_non_constant_cap_alpha`, `src/alpha_check.rs:88-92`: `row_sums += alpha ^ first`
over the pixels, in an unsigned integer with `J` values (wrapping, as in a release build). -/
def alphaRowSum (J first : ℕ) (sum : ℕ) (alphas : List ℕ) : ℕ :=
  alphas.foldl (fun s a => (s + (a ^^^ first)) % J) sum

/-- `src/alpha_check.rs:87-101`: the loop over rows, returning at the end of the first row after which
the running sum is not zero. `row[..width * CHANNELS]` cannot panic for a validated image. -/
def alphaRowsDiffer (J first width : ℕ) : ℕ → List (List ℕ) → Bool
  | sum, [] => decide (sum ≠ 0)
  | sum, row :: rows =>
    let s := alphaRowSum J first sum ((chunksExact 4 (row.take (width * 4))).map fun p => p.getD 3 0)
    if s ≠ 0 then true else alphaRowsDiffer J first width s rows

/-- `has_non_constant_cap_alpha::<V, J, 3, 4>` (`src/alpha_check.rs:64-102`) on sample bit patterns, and
`has_non_constant_cap_alpha_f32_impl` (`:105-134`) on `to_bits()`. -/
def hasNonConstantAlpha (J : ℕ) (store : List ℕ) (width stride : ℕ) : Bool :=
  if store = [] then false
  else alphaRowsDiffer J (store.getD 3 0) width 0 (chunksExact stride store)

/-! ### 8 bit -/

/-- `div_by_255`, `src/alpha_handle_u8.rs:43-46`. -/
def divBy255 (v : ℕ) : ℕ := min ((((v + 0x80) >>> 8) + v + 0x80) >>> 8) 255

/-- The pixel body of `premultiply_alpha_rgba_row_impl`, `src/alpha_handle_u8.rs:49-58`. The fourth
sample is multiplied by alpha like the others. -/
def premultiplyPixel8 : List ℕ → Option (List ℕ) :=
  pixelOp (fun c a => divBy255 (c * a)) (fun a => divBy255 (a * a))

/-- The value stored by `make_unpremultiplication_table` for `(alpha, pixel)`,
`src/alpha_handle_u8.rs:95-100` (`as u8` keeps the low 8 bits). -/
def unpremulEntry (alpha pixel : ℕ) : ℕ :=
  if alpha = 0 then 0 else ndiv (pixel * 255 + alpha / 2) alpha % 256

/-- `make_unpremultiplication_table`, `src/alpha_handle_u8.rs:89-106`: two nested loops writing
`buf[alpha * 255 + pixel]`, `alpha` outside. The array is a function of the index. -/
def unpremulTable : ℕ → ℕ :=
  (List.range 256).foldl (fun t alpha =>
    (List.range 256).foldl (fun t pixel =>
      fun i => if i = alpha * 255 + pixel then unpremulEntry alpha pixel else t i) t) (fun _ => 0)

/-- The pixel body of `unpremultiply_alpha_rgba_row_impl`, `src/alpha_handle_u8.rs:109-117`. The index
is at most `255 * 255 + 255 < 65536`: no `u16` overflow and no panic. -/
def unpremultiplyPixel8 : List ℕ → Option (List ℕ) :=
  pixelOp (fun c a => unpremulTable (a * 255 + c)) (fun a => a)

/-- RGBA8: `src/image_store.rs:526-600`; the check uses `u32` sums (`src/alpha_check.rs:32-38`). -/
def alphaU8 : AlphaOps ℕ where
  isNeeded := fun img => hasNonConstantAlpha (2 ^ 32) img.buffer img.width (img.strideOf 4)
  premultiply := premultiplyImage premultiplyPixel8
  unpremultiply := unpremultiplyImage unpremultiplyPixel8

/-! ### 16 bit -/

/-- `div_by_1023`, `src/alpha_handle_u16.rs:43-47`. -/
def divBy1023 (v : ℕ) : ℕ := (((v + 2 ^ 9) >>> 10) + (v + 2 ^ 9)) >>> 10
/-- `div_by_4095`, `src/alpha_handle_u16.rs:51-55`. -/
def divBy4095 (v : ℕ) : ℕ := (((v + 2 ^ 11) >>> 12) + (v + 2 ^ 11)) >>> 12
/-- `div_by_65535`, `src/alpha_handle_u16.rs:59-64`. -/
def divBy65535 (v : ℕ) : ℕ := (((v + 2 ^ 15) >>> 16) + (v + 2 ^ 15)) >>> 16

/-- `x as u16` / `x as u32` of a non-negative `f32`: truncation, saturating at `hi`. -/
def truncSat (hi : ℕ) (q : ℚ) : ℕ := min ⌊q⌋.toNat hi

/-- One product in `premultiply_alpha_rgba_row`, `src/alpha_handle_u16.rs:67-104`: `v = src[i] * a`. The
second branch compares with 4096 and is never taken, since `maxColors = 2^depth - 1`. -/
def premulValue16 (maxColors v : ℕ) : ℕ :=
  if maxColors = 1023 then divBy1023 v
  else if maxColors = 4096 then divBy4095 v
  else if maxColors = 65535 then divBy65535 v
  else min (truncSat (2 ^ 32 - 1) (F32.mul (F32.ofNat v) (F32.div 1 (F32.ofNat maxColors)))) maxColors

/-- The pixel body of `premultiply_alpha_rgba_row`, `src/alpha_handle_u16.rs:66-104`. -/
def premultiplyPixel16 (maxColors : ℕ) : List ℕ → Option (List ℕ) :=
  pixelOp (fun c a => premulValue16 maxColors (c * a)) (fun a => premulValue16 maxColors (a * a))

/-- One product in `unpremultiply_alpha_rgba_row`, `src/alpha_handle_u16.rs:110-115`:
`(c * max_colors) as f32 * (1. / a as f32)) as u16`. -/
def unpremulValue16 (maxColors c a : ℕ) : ℕ :=
  truncSat 65535 (F32.mul (F32.ofNat (c * maxColors)) (F32.div 1 (F32.ofNat a)))

/-- The pixel body of `unpremultiply_alpha_rgba_row`, `src/alpha_handle_u16.rs:106-119`: nothing happens
for alpha 0; otherwise the fourth sample is treated like the colours. -/
def unpremultiplyPixel16 (maxColors : ℕ) : List ℕ → Option (List ℕ) :=
  pixelOp (fun c a => if a ≠ 0 then unpremulValue16 maxColors c a else c)
    (fun a => if a ≠ 0 then unpremulValue16 maxColors a a else a)

/-- RGBA16: `src/image_store.rs:603-658`, `:702-716`; the depth is the destination's
(`max_colors = (1 << bit_depth) - 1`, `src/alpha_handle_u16.rs:131`, `:159`); `u64` sums in the check. -/
def alphaU16 : AlphaOps ℕ where
  isNeeded := fun img => hasNonConstantAlpha (2 ^ 64) img.buffer img.width (img.strideOf 4)
  premultiply := fun src dst => premultiplyImage (premultiplyPixel16 (2 ^ dst.bitDepth - 1)) src dst
  unpremultiply := fun img => unpremultiplyImage (unpremultiplyPixel16 (2 ^ img.bitDepth - 1)) img

/-! ### f32 -/

/-- The pixel body of `premultiply_pixel_f32_row`, `src/alpha_handle_f32.rs:64-80`; `ρ` is binary32
rounding. -/
def premultiplyPixelF (ρ : ℚ → ℚ) : List ℚ → Option (List ℚ) :=
  pixelOp (fun c a => ρ (c * a)) (fun a => a)

/-- The pixel body of `unpremultiply_pixel_f32_row`, `src/alpha_handle_f32.rs:40-62`. -/
def unpremultiplyPixelF (ρ : ℚ → ℚ) : List ℚ → Option (List ℚ) :=
  pixelOp (fun c a => if a ≠ 0 then ρ (c * ρ (fdiv 1 a)) else 0) (fun a => a)

/-- RGBA f32: `src/image_store.rs:659-680`, `:718-724`. `bits` is `f32::to_bits`. -/
def alphaF32 (ρ : ℚ → ℚ) (bits : ℚ → ℕ) : AlphaOps ℚ where
  isNeeded := fun img => hasNonConstantAlpha (2 ^ 64) (img.buffer.map bits) img.width (img.strideOf 4)
  premultiply := premultiplyImage (premultiplyPixelF ρ)
  unpremultiply := unpremultiplyImage (unpremultiplyPixelF ρ)

end PicScale
