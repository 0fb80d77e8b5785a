import Verif.Model.Alpha
import Verif.Model.AlphaX86
import Verif.Model.Neon

/-!
Alpha handling of RGBA8 and the alpha checks on aarch64: `src/neon/alpha_u8.rs`,
`src/neon/check_alpha.rs`, and the selection in `src/alpha_handle_u8.rs:149-152,188-191` and
`src/image_store.rs:550-554,627-631`.

A register is the list of its lanes. Every chunk function is called on slices of exactly the length it
loads and stores (from `chunks_exact`, or on a local array), so loads are total here. Samples of an 8-bit
image are below 256.
-/

namespace PicScale

variable {S : Type}

/-! ### structured loads and stores -/

/-- Register `k` of `vld4_*`/`vld4q_*`: every fourth sample from `k`, `n` of them. -/
def plane4 (n : ℕ) (d : S) (l : List S) (k : ℕ) : List S := (List.range n).map fun i => l.getD (4 * i + k) d

/-- `vst4_*`/`vst4q_*`: four registers of `n` lanes interleaved. -/
def vst4 (n : ℕ) (d : S) (r g b a : List S) : List S :=
  (List.range n).flatMap fun i => [r.getD i d, g.getD i d, b.getD i d, a.getD i d]

/-- `vld4`, a function of colour and alpha on the three colour registers, `vst4`: the shape of every NEON
alpha block (`src/neon/alpha_u8.rs:59-83,93-99,193-199,205-210,220-224`). -/
def planes (n : ℕ) (d : S) (f : List S → List S → List S) (l : List S) : List S :=
  let a := plane4 n d l 3
  vst4 n d (f (plane4 n d l 0) a) (f (plane4 n d l 1) a) (f (plane4 n d l 2) a) a

/-- Full chunks of `P` samples, then the remainders of both rows through another row function:
`for (dst, src) in rem.chunks_exact_mut(P).zip(src_rem.chunks_exact(P))`, `into_remainder()`,
`remainder()` (`src/neon/alpha_u8.rs:51-106`). -/
def chunksThen (P : ℕ) (chunk : List S → List S) (rest : List S → List S → Option (List S)) (dst src : List S) :
    Option (List S) := do
  let body ← updChunks P (fun _ s => some (chunk s)) dst (chunksExact P src)
  let r ← rest (chunksRemainder P dst) (chunksRemainder P src)
  some (body.take (dst.length / P * P) ++ r)

/-- The same in place (`src/neon/alpha_u8.rs:189-228`). -/
def chunksThenInPlace (P : ℕ) (chunk : List S → List S) (rest : List S → Option (List S)) (row : List S) :
    Option (List S) := do
  let body ← updChunks P (fun d _ => some (chunk d)) row (List.replicate (row.length / P) ())
  let r ← rest (chunksRemainder P row)
  some (body.take (row.length / P * P) ++ r)

/-! ### RGBA8 premultiplication -/

/-- One lane of `vrsraq_n_u16::<8>(v, v)`: `v + round(v / 256)`, 16 bits. -/
def vrsra8 (v : ℕ) : ℕ := (v + ((v + 128) >>> 8)) % 65536
/-- One lane of `vqrshrn_n_u16::<8>`: rounding shift, saturated to a byte. -/
def vqrshrn8 (v : ℕ) : ℕ := min ((v + 128) >>> 8) 255
/-- One lane of `neon_div_by_255_n`, `src/neon/alpha_u8.rs:37-39`. -/
def neonDiv255 (v : ℕ) : ℕ := vqrshrn8 (vrsra8 v)

/-- `premultiply_vec!`, `src/neon/alpha_u8.rs:41-49`: the halves of 16 lanes, `vmull_u8`, divide, combine. -/
def premulVecN (v a : List ℕ) : List ℕ :=
  let hi := List.zipWith (fun x y => neonDiv255 (x * y)) (octet v 1) (octet a 1)
  let lo := List.zipWith (fun x y => neonDiv255 (x * y)) (octet v 0) (octet a 0)
  lo ++ hi

/-- The 16 pixel block, `src/neon/alpha_u8.rs:90-101`. -/
def premulBlock16 (l : List ℕ) : List ℕ := planes 16 0 premulVecN l

/-- The 64 pixel block, `src/neon/alpha_u8.rs:55-85`: four times the 16 pixel one. -/
def premulBlock64 (l : List ℕ) : List ℕ :=
  premulBlock16 (l.take 64) ++ premulBlock16 ((l.drop 64).take 64) ++ premulBlock16 ((l.drop 128).take 64) ++
    premulBlock16 ((l.drop 192).take 64)

/-- `neon_premultiply_alpha_rgba_impl_row`, `src/neon/alpha_u8.rs:51-106`: what is left after the blocks
goes to the portable row function. -/
def premulRowNeon : List ℕ → List ℕ → Option (List ℕ) :=
  chunksThen 256 premulBlock64 (chunksThen 64 premulBlock16 (alphaRow premultiplyPixel8))

/-! ### RGBA8 unpremultiplication -/

/-- `RecipEstimate` of the Arm Architecture Reference Manual, for `256 ≤ a < 512`: about `2^18 / a`, in
`256 … 511`. -/
def recipEstimate (a : ℕ) : ℕ := (2 ^ 19 / (2 * a + 1) + 1) / 2

/-- One lane of `vrecpeq_f32` (`FPRecipEstimate`), for positive normal numbers with a reciprocal in range:
the 8 leading fraction bits are looked up, the exponent negated. For 0 the instruction returns
infinity, and the caller discards the result. -/
def vrecpe1 (x : ℚ) : ℚ :=
  (recipEstimate ⌊256 * (x / F32.pow2 (F32.ilog2 x))⌋.toNat : ℚ) / 256 * F32.pow2 (-(F32.ilog2 x) - 1)

/-- One lane of `vcvtaq_u32_f32` for a number that is not negative: nearest integer, ties away from 0,
saturating. -/
def vcvta1 (q : ℚ) : ℕ := min ⌊q + 1 / 2⌋.toNat (2 ^ 32 - 1)

/-- One lane of `unpremultiply_vec`/`unpremultiply_vech` before the selection,
`src/neon/alpha_u8.rs:144-163`: the 16-bit `255 v`, as `f32` times the estimate, to `u32`, narrowed
(`vmovn_u32`, low 16 bits) and saturated (`vqmovn_u16`). -/
def unpremulLaneN (v a : ℕ) : ℕ :=
  min (vcvta1 (F32.mul ((v * 255 : ℕ) : ℚ) (vrecpe1 (a : ℚ))) % 65536) 255

/-- `vbsl(vceqz(a), 0, x)`. -/
def zeroWhereN (a x : List ℕ) : List ℕ := List.zipWith (fun m v => if m = 0 then 0 else v) a x

/-- `NeonDisassociateAlpha::unpremultiply_vec`, `src/neon/alpha_u8.rs:143-169`: four quarters of 16 lanes. -/
def unpremulVecN (v a : List ℕ) : List ℕ :=
  let lolo := List.zipWith unpremulLaneN (quad v 0) (quad a 0)
  let lohi := List.zipWith unpremulLaneN (quad v 1) (quad a 1)
  let hilo := List.zipWith unpremulLaneN (quad v 2) (quad a 2)
  let hihi := List.zipWith unpremulLaneN (quad v 3) (quad a 3)
  zeroWhereN a (lolo ++ lohi ++ (hilo ++ hihi))

/-- `unpremultiply_vech`, `src/neon/alpha_u8.rs:172-185`: two quarters of 8 lanes. -/
def unpremulVechN (v a : List ℕ) : List ℕ :=
  let lolo := List.zipWith unpremulLaneN (quad v 0) (quad a 0)
  let lohi := List.zipWith unpremulLaneN (quad v 1) (quad a 1)
  zeroWhereN a (lolo ++ lohi)

/-- `NeonDisassociateAlpha::disassociate`, `src/neon/alpha_u8.rs:189-228`: blocks of 16 and 8 pixels, the
rest through a zeroed buffer of 8 pixels. -/
def unpremulRowNeon : List ℕ → Option (List ℕ) :=
  chunksThenInPlace 64 (planes 16 0 unpremulVecN) (alphaChunksInPlace 32 (planes 8 0 unpremulVechN))

/-! ### alpha checks -/

/-- `vpaddl_*`/`vpaddlq_*`: sums of pairs, in wider lanes. -/
def vpaddl : List ℕ → List ℕ
  | a :: b :: l => (a + b) :: vpaddl l
  | _ => []
/-- `vaddq_u32`. -/
def vaddq32 (a b : List ℕ) : List ℕ := List.zipWith (fun x y => (x + y) % 2 ^ 32) a b
/-- `veor`/`veorq` with a broadcast value. -/
def veorV (l : List ℕ) (v : ℕ) : List ℕ := l.map fun x => x ^^^ v
/-- `vaddvq_u32`. -/
def vaddvq32 (a : List ℕ) : ℕ := a.sum % 2 ^ 32

/-- The scalar tail, `for chunk in row.chunks_exact(4) { h_sum += chunk[3] as u32 ^ first_alpha as u32 }`
(`src/neon/check_alpha.rs:69-71,120-122`; wrapping, as in a release build). -/
def alphaTailN (first h : ℕ) (row : List ℕ) : ℕ :=
  (chunksExact 4 row).foldl (fun h p => (h + (p.getD 3 0 ^^^ first)) % 2 ^ 32) h

/-- A row of `neon_has_non_constant_cap_alpha_rgba8`, `src/neon/check_alpha.rs:47-76`: blocks of 16 pixels,
then of 8 (whose two sums are added to both halves of the register), then pixels. -/
def neonAlphaRow8 (first : ℕ) (row : List ℕ) : ℤ :=
  let sums := (chunksExact 64 row).foldl
    (fun s c => vaddq32 s (vpaddl (vpaddl (veorV (plane4 16 0 c 3) first)))) [0, 0, 0, 0]
  let row := chunksRemainder 64 row
  let sums := (chunksExact 32 row).foldl
    (fun s c => let b := vpaddl (vpaddl (veorV (plane4 8 0 c 3) first)); vaddq32 s (b ++ b)) sums
  let row := chunksRemainder 32 row
  (alphaTailN first (vaddvq32 sums) row : ℤ)

/-- A row of `neon_has_non_constant_cap_alpha_rgba16`, `src/neon/check_alpha.rs:97-126`: blocks of 8
pixels, then of 4 (added to both halves), then pixels. -/
def neonAlphaRow16 (first : ℕ) (row : List ℕ) : ℤ :=
  let sums := (chunksExact 32 row).foldl
    (fun s c => vaddq32 s (vpaddl (veorV (plane4 8 0 c 3) first))) [0, 0, 0, 0]
  let row := chunksRemainder 32 row
  let sums := (chunksExact 16 row).foldl
    (fun s c => let b := vpaddl (veorV (plane4 4 0 c 3) first); vaddq32 s (b ++ b)) sums
  let row := chunksRemainder 16 row
  (alphaTailN first (vaddvq32 sums) row : ℤ)

/-! ### selection -/

/-- RGBA8 on aarch64: `src/alpha_handle_u8.rs:149-152,188-191`, `src/image_store.rs:550-554`. The loop over
rows of the check (`src/neon/check_alpha.rs:37-79`) is that of the x86 ones, `alphaVariesBy`. -/
def alphaNeonU8 : AlphaOps ℕ where
  isNeeded := fun img => alphaVariesBy neonAlphaRow8 img.buffer img.width (img.strideOf 4)
  premultiply := premultiplyImageWith premulRowNeon
  unpremultiply := unpremultiplyImageWith unpremulRowNeon

/-- RGBA16 on aarch64: the check, `src/image_store.rs:627-631`. -/
def alphaNeededNeonU16 (img : Image ℕ) : Bool :=
  alphaVariesBy neonAlphaRow16 img.buffer img.width (img.strideOf 4)

end PicScale
