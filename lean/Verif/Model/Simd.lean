import Verif.Model.Fixed

/-!
The x86 vector instructions used by `src/sse/*` and `src/avx2/*`, as functions on byte lists.

A 128-bit register is the list of its 16 bytes, lowest address first; a 256-bit register is the
pair (low half, high half). Lanes are read little endian as two's complement integers, which is
what the processor manual (and Rust's `std::arch` documentation) says about each intrinsic. This is
the only part of the model that describes hardware instead of code in `/repo`.

A load of memory outside the slice is undefined behaviour in Rust (all these functions are
`unsafe`); here it is `none`, exactly like a panic elsewhere in the model. So a theorem saying that
a handler returns `some _` says that it stays inside its buffers.
-/

namespace PicScale

/-- `__m128i`: 16 bytes. -/
abbrev Reg := List ℕ

/-- Wrap to `i16`. -/
def i16 (v : ℤ) : ℤ := Int.bmod v 65536

/-- The two bytes of an `i16` (of `v` modulo `2^16`). -/
def bytes16 (v : ℤ) : List ℕ := [(v % 256).toNat, (v / 256 % 256).toNat]
/-- The four bytes of an `i32` (of `v` modulo `2^32`). -/
def bytes32 (v : ℤ) : List ℕ :=
  [(v % 256).toNat, (v / 256 % 256).toNat, (v / 65536 % 256).toNat, (v / 16777216 % 256).toNat]

/-- Signed 16-bit lanes of a register. -/
def lanes16 : Reg → List ℤ
  | a :: b :: t => i16 ((a : ℤ) + 256 * (b : ℤ)) :: lanes16 t
  | _ => []
/-- Signed 32-bit lanes of a register. -/
def lanes32 : Reg → List ℤ
  | a :: b :: c :: d :: t =>
    i32 ((a : ℤ) + 256 * (b : ℤ) + 65536 * (c : ℤ) + 16777216 * (d : ℤ)) :: lanes32 t
  | _ => []
/-- The register with the given 16-bit lanes. -/
def ofLanes16 (l : List ℤ) : Reg := l.flatMap bytes16
/-- The register with the given 32-bit lanes. -/
def ofLanes32 (l : List ℤ) : Reg := l.flatMap bytes32

/-- Alternate the elements of two lists. -/
def interleave {α : Type _} : List α → List α → List α
  | a :: as, b :: bs => a :: b :: interleave as bs
  | _, _ => []

/-- Alternate pairs of elements of two lists. -/
def interleave2 {α : Type _} : List α → List α → List α
  | a :: a' :: as, b :: b' :: bs => a :: a' :: b :: b' :: interleave2 as bs
  | _, _ => []

/-- `_mm_setzero_si128`. -/
def setzero : Reg := List.replicate 16 0
/-- `_mm_set1_epi8`. -/
def set1epi8 (v : ℕ) : Reg := List.replicate 16 v
/-- `_mm_set1_epi16`. -/
def set1epi16 (v : ℤ) : Reg := ofLanes16 (List.replicate 8 v)
/-- `_mm_set1_epi32`, of a value given by its four bytes. -/
def set1bytes32 (bs : List ℕ) : Reg := bs ++ bs ++ bs ++ bs
/-- `_mm_set1_epi32`. -/
def set1epi32 (v : ℤ) : Reg := set1bytes32 (bytes32 v)
/-- `_mm_setr_epi16`. -/
def setr16 (l : List ℤ) : Reg := ofLanes16 l

/-- `_mm_unpacklo_epi8`. -/
def unpacklo8 (a b : Reg) : Reg := interleave (a.take 8) (b.take 8)
/-- `_mm_unpackhi_epi8`. -/
def unpackhi8 (a b : Reg) : Reg := interleave (a.drop 8) (b.drop 8)
/-- `_mm_unpacklo_epi16`. -/
def unpacklo16 (a b : Reg) : Reg := interleave2 (a.take 8) (b.take 8)
/-- `_mm_unpackhi_epi16`. -/
def unpackhi16 (a b : Reg) : Reg := interleave2 (a.drop 8) (b.drop 8)
/-- `_mm_unpackhi_epi64`. -/
def unpackhi64 (a b : Reg) : Reg := a.drop 8 ++ b.drop 8

/-- Sums of adjacent products, `_mm_madd_epi16` on lanes. -/
def maddLanes : List ℤ → List ℤ → List ℤ
  | a :: a' :: as, b :: b' :: bs => i32 (a * b + a' * b') :: maddLanes as bs
  | _, _ => []
/-- `_mm_madd_epi16`. -/
def madd16 (a b : Reg) : Reg := ofLanes32 (maddLanes (lanes16 a) (lanes16 b))
/-- `_mm_add_epi32`. -/
def add32 (a b : Reg) : Reg :=
  ofLanes32 (List.zipWith (fun x y => i32 (x + y)) (lanes32 a) (lanes32 b))
/-- `_mm_add_epi16`. -/
def add16 (a b : Reg) : Reg :=
  ofLanes16 (List.zipWith (fun x y => i16 (x + y)) (lanes16 a) (lanes16 b))
/-- `_mm_srai_epi32::<n>`. -/
def srai32 (n : ℕ) (a : Reg) : Reg := ofLanes32 ((lanes32 a).map fun (v : ℤ) => v >>> n)
/-- `_mm_srai_epi16::<n>`. -/
def srai16 (n : ℕ) (a : Reg) : Reg := ofLanes16 ((lanes16 a).map fun (v : ℤ) => v >>> n)
/-- `_mm_srli_epi16::<n>`: logical shift of the unsigned lanes. -/
def srli16 (n : ℕ) (a : Reg) : Reg := ofLanes16 ((lanes16 a).map fun (v : ℤ) => (v % 65536) >>> n)
/-- One lane of `_mm_mulhrs_epi16`: the product divided by `2^15`, rounded half up. -/
def mulhrs1 (a b : ℤ) : ℤ := i16 ((a * b + 16384) >>> 15)
/-- `_mm_mulhrs_epi16`. -/
def mulhrs16 (a b : Reg) : Reg := ofLanes16 (List.zipWith mulhrs1 (lanes16 a) (lanes16 b))
/-- `_mm_packs_epi32`: `i32` to `i16` with signed saturation. -/
def packs32 (a b : Reg) : Reg :=
  ofLanes16 ((lanes32 a ++ lanes32 b).map fun v => max (-32768) (min v 32767))
/-- `_mm_packus_epi32`: `i32` to `u16` with unsigned saturation. -/
def packus32 (a b : Reg) : Reg :=
  ofLanes16 ((lanes32 a ++ lanes32 b).map fun v => max 0 (min v 65535))
/-- `_mm_packus_epi16`: `i16` to `u8` with unsigned saturation. -/
def packus16 (a b : Reg) : Reg :=
  (lanes16 a ++ lanes16 b).map fun v => (max 0 (min v 255)).toNat
/-- `_mm_shuffle_epi8`: byte `i` of the result is byte `mask[i]` of `a`, or 0 where the mask is
negative. -/
def shuffle8 (a : Reg) (mask : List ℤ) : Reg :=
  mask.map fun m => if m < 0 then 0 else a.getD m.toNat 0
/-- `_mm_cvtepi16_epi32`: sign extension of the four low 16-bit lanes. -/
def cvtepi16epi32 (a : Reg) : Reg := ofLanes32 ((lanes16 a).take 4)

/-- `n` bytes of a byte slice from offset `off`; outside the slice: `none`. The model keeps samples
as naturals, so a byte is reduced modulo 256 when it enters a register (a `u8` is below 256
already: this changes nothing). -/
def loadBytes (src : List ℕ) (off n : ℕ) : Option (List ℕ) :=
  (slice? src off (off + n)).map fun l => l.map (· % 256)
/-- `_mm_loadu_si128`. -/
def load128 (src : List ℕ) (off : ℕ) : Option Reg := loadBytes src off 16
/-- `_mm_loadu_si64`: eight bytes, upper half zero. -/
def load64 (src : List ℕ) (off : ℕ) : Option Reg :=
  (loadBytes src off 8).map (· ++ List.replicate 8 0)
/-- `_mm_loadu_si32`, and `_mm_cvtsi32_si128` of an unaligned `i32` read: four bytes, rest zero. -/
def load32 (src : List ℕ) (off : ℕ) : Option Reg :=
  (loadBytes src off 4).map (· ++ List.replicate 12 0)
/-- `_mm_insert_epi8::<0>(_mm_setzero_si128(), *src.get_unchecked(off))`. -/
def load8 (src : List ℕ) (off : ℕ) : Option Reg :=
  (loadBytes src off 1).map (· ++ List.replicate 15 0)
/-- The bytes of `n` consecutive `i16` weights from `off` (reading a `&[i16]` through a pointer to
another type); outside the slice: `none`. -/
def weightBytes (w : List ℤ) (off n : ℕ) : Option (List ℕ) :=
  (slice? w off (off + n)).map ofLanes16

/-- `_mm_shuffle_epi32` (and one half of `_mm256_permutevar8x32_epi32`): 32-bit lane `i` of the
result is lane `idx[i]`. -/
def shuffle32 (idx : List ℕ) (a : Reg) : Reg := idx.flatMap fun i => (a.drop (4 * i)).take 4
/-- `_mm_shufflelo_epi16`: 16-bit lane `i < 4` of the result is lane `idx[i]`, the upper half is
kept. -/
def shufflelo16 (idx : List ℕ) (a : Reg) : Reg :=
  (idx.flatMap fun i => (a.drop (2 * i)).take 2) ++ a.drop 8
/-- `_mm_alignr_epi8::<n>(a, b)`: bytes `n … n + 15` of `b` followed by `a`. -/
def alignr (n : ℕ) (a b : Reg) : Reg := ((b ++ a).drop n).take 16
/-- Sums of adjacent lanes. -/
def haddLanes : List ℤ → List ℤ
  | a :: b :: t => i16 (a + b) :: haddLanes t
  | _ => []
/-- `_mm_hadd_epi16`. -/
def hadd16 (a b : Reg) : Reg := ofLanes16 (haddLanes (lanes16 a) ++ haddLanes (lanes16 b))
/-- `_mm_setr_epi32`. -/
def setr32 (l : List ℤ) : Reg := ofLanes32 l
/-- `_mm_loadu_si16`: two bytes, rest zero. -/
def load16 (src : List ℕ) (off : ℕ) : Option Reg :=
  (loadBytes src off 2).map (· ++ List.replicate 14 0)
/-- `_mm_insert_epi8::<2>`. -/
def insert8at2 (a : Reg) (v : ℕ) : Reg := a.set 2 v
/-- A load of `n` weights into a register, upper part zero (`_mm_loadu_si128` for 8,
`_mm_loadu_si64` for 4, `_mm_loadu_si32` for 2, `_mm_loadu_si16` for 1). -/
def loadWeights (w : List ℤ) (off n : ℕ) : Option Reg :=
  (weightBytes w off n).map (· ++ List.replicate (16 - 2 * n) 0)

/-- Rust `while jx + margin < size` { state = body(jx, state); jx += step; }`, returning the final
`jx`. The fuel bounds the number of iterations (`size` is enough, every `step ≥ 1`). -/
def whileAcc {σ : Type} (margin step size : ℕ) (body : ℕ → σ → Option σ) :
    ℕ → ℕ → σ → Option (ℕ × σ)
  | 0, jx, s => some (jx, s)
  | fuel + 1, jx, s =>
    if jx + margin < size then do
      let s' ← body jx s
      whileAcc margin step size body fuel (jx + step) s'
    else some (jx, s)

/-- Rust `for j in a..b { state = body(j, state) }`. -/
def forRange {σ : Type} (a b : ℕ) (body : ℕ → σ → Option σ) (s : σ) : Option σ :=
  (List.range' a (b - a)).foldlM (fun s j => body j s) s

/-- The pattern `if size == 2 {…} else if size == 3 {…} else if size == 4 {…} else { for j in 0..size
{…} }` with the first cases written out, of several handlers. `step` is one row of the written out
cases, `step'` one row of the loop. -/
def unrolled24 {σ : Type} (size : ℕ) (step step' : ℕ → σ → Option σ) (init : σ) : Option σ :=
  if size = 2 then do
    let st ← step 0 init
    step 1 st
  else if size = 3 then do
    let st ← step 0 init
    let st ← step 1 st
    step 2 st
  else if size = 4 then do
    let st ← step 0 init
    let st ← step 1 st
    let st ← step 2 st
    step 3 st
  else forRange 0 size step' init

end PicScale
