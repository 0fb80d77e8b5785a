import Verif.Model.Ar30
import Verif.Model.X86U16

/-!
The packed 10-bit passes on `x86_64` with SSE4.1: `src/sse/horizontal_ar30.rs`, `src/sse/vertical_ar30.rs`,
the AR30 helpers of `src/sse/u8_utils.rs`, and the selection in `src/dispatch_group_ar30.rs` (default
features). `x86_64` is little endian.

Conventions as in `Model/Simd.lean`: a load outside the slice is `none`.
-/

namespace PicScale

/-! ### instructions -/

/-- `_mm_and_si128`. -/
def and128 (a b : Reg) : Reg := List.zipWith (fun x y => x &&& y) a b
/-- `_mm_or_si128`. -/
def or128 (a b : Reg) : Reg := List.zipWith (fun x y => x ||| y) a b
/-- `_mm_slli_epi32::<n>`. -/
def slli32 (n : ℕ) (a : Reg) : Reg := ofLanes32 ((lanes32 a).map fun (v : ℤ) => v * 2 ^ n)
/-- The eight bytes of a 64-bit lane. -/
def bytes64 (v : ℕ) : List ℕ := (List.range 8).map fun i => v / 256 ^ i % 256
/-- The number with the given bytes, lowest first. -/
def leBytes (l : List ℕ) : ℕ := l.foldr (fun b v => b + 256 * v) 0
/-- Unsigned 64-bit lanes of a register. -/
def lanes64 (a : Reg) : List ℕ := [leBytes (a.take 8), leBytes (a.drop 8)]
/-- `_mm_srli_epi64::<n>`. -/
def srli64 (n : ℕ) (a : Reg) : Reg := (lanes64 a).flatMap fun v => bytes64 (v / 2 ^ n)
/-- `_mm_slli_epi64::<n>`. -/
def slli64 (n : ℕ) (a : Reg) : Reg := (lanes64 a).flatMap fun v => bytes64 (v * 2 ^ n)
/-- `_mm_set1_epi64x` of a number that is not negative. -/
def set1epi64 (v : ℕ) : Reg := bytes64 v ++ bytes64 v
/-- `_mm_unpacklo_epi64`. -/
def unpacklo64 (a b : Reg) : Reg := a.take 8 ++ b.take 8

/-! ### `src/sse/u8_utils.rs` -/

/-- `_mm_rev128_epi32`, `src/sse/u8_utils.rs:63-67`. -/
def rev128 (v : Reg) : Reg := shuffle8 v [3, 2, 1, 0, 7, 6, 5, 4, 11, 10, 9, 8, 15, 14, 13, 12]

/-- `if AR30_ORDER == 0 { v } else { _mm_rev128_epi32(v) }`. -/
def order128 (o : Ar30Order) (v : Reg) : Reg :=
  match o with
  | .host => v
  | .network => rev128 v

/-- `_mm_and_si128(_mm_srli_epi32::<n>(v), mask)`; without the shift for `n = 0`. -/
def field30 (n : ℕ) (v : Reg) : Reg :=
  and128 (if n = 0 then v else srli32 n v) (set1epi32 0x3ff)

/-- The three shifts of `_mm_unzip_3_ar30` and `_mm_unzips_3_ar30`. -/
def shifts30 (t : Rgb30) : ℕ × ℕ × ℕ :=
  match t with
  | .ar30 => (0, 10, 20)
  | .ra30 => (22, 12, 2)

/-- `_mm_unzip_3_ar30`, `src/sse/u8_utils.rs:69-108`. -/
def unzip3 (t : Rgb30) (o : Ar30Order) (l0 l1 : Reg) : Reg × Reg × Reg :=
  let v0 := order128 o l0
  let v1 := order128 o l1
  let s := shifts30 t
  (packus32 (field30 s.1 v0) (field30 s.1 v1), packus32 (field30 s.2.1 v0) (field30 s.2.1 v1),
    packus32 (field30 s.2.2 v0) (field30 s.2.2 v1))

/-- `_mm_unzips_3_ar30`, `src/sse/u8_utils.rs:237-280` (its fourth result is `_mm_set1_epi16(3)`). -/
def unzips3 (t : Rgb30) (o : Ar30Order) (l : Reg) : Reg × Reg × Reg :=
  let v := order128 o l
  let s := shifts30 t
  (packus32 (field30 s.1 v) (field30 s.1 v), packus32 (field30 s.2.1 v) (field30 s.2.1 v),
    packus32 (field30 s.2.2 v) (field30 s.2.2 v))

/-- One half of `_mm_zip_4_ar30`, `src/sse/u8_utils.rs:110-178`: `r, g, b` are the three unpacked (32-bit)
planes of this half. -/
def zipHalf (t : Rgb30) (o : Ar30Order) (r g b : Reg) : Reg :=
  order128 o (match t with
    | .ar30 => or128 (or128 (or128 (set1epi32 (3 * 2 ^ 30)) (slli32 20 b)) (slli32 10 g)) r
    | .ra30 => or128 (or128 (or128 (set1epi32 3) (slli32 22 r)) (slli32 12 g)) (slli32 2 b))

/-- `_mm_zip_4_ar30`, `src/sse/u8_utils.rs:110-178` (the fourth argument is not used), followed by the two
stores. -/
def zip4 (t : Rgb30) (o : Ar30Order) (r g b : Reg) : List ℕ :=
  zipHalf t o (unpacklo16 r setzero) (unpacklo16 g setzero) (unpacklo16 b setzero) ++
    zipHalf t o (unpackhi16 r setzero) (unpackhi16 g setzero) (unpackhi16 b setzero)

/-- `_mm_extract_ar30`, `src/sse/u8_utils.rs:180-219`. -/
def extract30 (t : Rgb30) (o : Ar30Order) (v : Reg) : Reg :=
  let mask := set1epi64 0x3ff
  let r := and128 v mask
  let g := and128 (srli64 16 v) mask
  let b := and128 (srli64 32 v) mask
  order128 o (match t with
    | .ar30 => or128 (or128 (or128 (set1epi64 (3 * 2 ^ 30)) (slli64 20 b)) (slli64 10 g)) r
    | .ra30 => or128 (or128 (or128 (set1epi64 3) (slli64 2 b)) (slli64 12 g)) (slli64 22 r))

/-- `_mm_ld1_ar30_s16`, `src/sse/u8_utils.rs:221-235`: one pixel as four `i16`, upper half zero. -/
def ld1 (t : Rgb30) (o : Ar30Order) (src : List ℕ) (off : ℕ) : Option Reg := do
  let l ← loadBytes src off 4
  let u := unpack30 .little t o (fromNeBytes .little (l.getD 0 0) (l.getD 1 0) (l.getD 2 0) (l.getD 3 0))
  some (ofLanes16 [(u.getD 0 0 : ℤ), (u.getD 1 0 : ℤ), (u.getD 2 0 : ℤ), 1023] ++ List.replicate 8 0)

/-- `_mm_unzips_4_ar30_separate`, `src/sse/u8_utils.rs:282-308`. -/
def unzips4 (t : Rgb30) (o : Ar30Order) (l : Reg) : Reg × Reg :=
  let v := unzips3 t o l
  let a00 := unpacklo16 v.1 v.2.1
  let a01 := unpackhi16 v.1 v.2.1
  let a10 := unpacklo16 v.2.2 (set1epi16 3)
  let a11 := unpackhi16 v.2.2 (set1epi16 3)
  let k0 := unpacklo32 a00 a10
  let k1 := unpacklo32 a01 a11
  let k2 := unpackhi32 a00 a10
  let k3 := unpackhi32 a01 a11
  (unpacklo64 k0 k1, unpacklo64 k2 k3)

/-- `_mm_unzip_4_ar30_separate`, `src/sse/u8_utils.rs:310-336`. -/
def unzip4 (t : Rgb30) (o : Ar30Order) (l0 l1 : Reg) : Reg × Reg × Reg × Reg :=
  let v := unzip3 t o l0 l1
  let a00 := unpacklo16 v.1 v.2.1
  let a01 := unpackhi16 v.1 v.2.1
  let a10 := unpacklo16 v.2.2 (set1epi16 3)
  let a11 := unpackhi16 v.2.2 (set1epi16 3)
  (unpacklo32 a00 a10, unpacklo32 a01 a11, unpackhi32 a00 a10, unpackhi32 a01 a11)

/-! ### horizontal -/

/-- `sh1`, `src/sse/horizontal_ar30.rs:70,97`. -/
def sh1 : List ℤ := [0, 1, 8, 9, 2, 3, 10, 11, 4, 5, 12, 13, 6, 7, 14, 15]

/-- `_mm_add_epi32(store, _mm_madd_epi16(_mm_shuffle_epi8(v, sh1), w))`. -/
def dotSh1 (store v w : Reg) : Reg := add32 store (madd16 (shuffle8 v sh1) w)

/-- `conv_horiz_rgba_1_u8_i16`, `src/sse/horizontal_ar30.rs:38-51`, with the weight of `:260-262,396-398`. -/
def ar30Px1 (t : Rgb30) (o : Ar30Order) (src : List ℕ) (w : List ℤ) (b : Bounds) (jx off : ℕ) (store : Reg) :
    Option Reg := do
  let w0 ← w[jx]?
  let px ← ld1 t o src (off + (b.start + jx) * 4)
  some (add32 store (madd16 (unpacklo16 px setzero) (set1epi16 w0)))

/-- `conv_horiz_rgba_8_u8_i16`, `src/sse/horizontal_ar30.rs:53-81`, with the weights of `:179-183,363-367`. -/
def ar30Px8 (t : Rgb30) (o : Ar30Order) (src : List ℕ) (w : List ℤ) (b : Bounds) (jx off : ℕ) (store : Reg) :
    Option Reg := do
  let w0 ← weightBytes w jx 2
  let w1 ← weightBytes w (jx + 2) 2
  let w2 ← weightBytes w (jx + 4) 2
  let w3 ← weightBytes w (jx + 6) 2
  let l0 ← load128 src (off + (b.start + jx) * 4)
  let l1 ← load128 src (off + (b.start + jx) * 4 + 16)
  let p := unzip4 t o l0 l1
  let v := dotSh1 store p.1 (set1bytes32 w0)
  let v := dotSh1 v p.2.1 (set1bytes32 w1)
  let v := dotSh1 v p.2.2.1 (set1bytes32 w2)
  some (dotSh1 v p.2.2.2 (set1bytes32 w3))

/-- `conv_horiz_rgba_4_u8_i16`, `src/sse/horizontal_ar30.rs:83-104`, with the weights of `:225-227,382-384`. -/
def ar30Px4 (t : Rgb30) (o : Ar30Order) (src : List ℕ) (w : List ℤ) (b : Bounds) (jx off : ℕ) (store : Reg) :
    Option Reg := do
  let w0 ← weightBytes w jx 2
  let w1 ← weightBytes w (jx + 2) 2
  let l ← load128 src (off + (b.start + jx) * 4)
  let p := unzips4 t o l
  let v := dotSh1 store p.1 (set1bytes32 w0)
  some (dotSh1 v p.2 (set1bytes32 w1))

/-- `srai`, `packus`, `min`, `_mm_extract_ar30`, `_mm_storeu_si32`: `src/sse/horizontal_ar30.rs:290-312,408-415`.
-/
def ar30Store (t : Rgb30) (o : Ar30Order) (prec : ℕ) (cut : Reg) (store : Reg) : List ℕ :=
  let s := srai32 prec store
  (extract30 t o (min16 (packus32 s s) cut)).take 4

/-- The loops of `sse_convolve_horizontal_rgba_rows_4_impl` and `sse_convolve_horizontal_rgba_row_impl`,
`src/sse/horizontal_ar30.rs:127-315,330-418`, with the constants in which they differ. -/
def ar30Sse (t : Rgb30) (o : Ar30Order) (prec : ℕ) (cut : Reg) (src : List ℕ) (offs : List ℕ) (w : List ℤ)
    (b : Bounds) : Option (List (List ℕ)) := do
  let st := offs.map fun _ => set1epi32 (2 ^ (prec - 1) - 1)
  let (jx, st) ← rowsLoop 8 8 b.size offs (ar30Px8 t o src w b) 0 st
  let (jx, st) ← rowsLoop 4 4 b.size offs (ar30Px4 t o src w b) jx st
  let (_, st) ← rowsLoop 0 1 b.size offs (ar30Px1 t o src w b) jx st
  some (st.map (ar30Store t o prec cut))

/-- `sse_convolve_horizontal_rgba_rows_4_ar30`: `PRECISION = 15`, `v_cut_off = _mm_set1_epi16(1023)`
(`src/sse/horizontal_ar30.rs:136-141`). -/
def ar30Rows4 (t : Rgb30) (o : Ar30Order) : List ℕ → List ℕ → List ℤ → Bounds → Option (List (List ℕ)) :=
  ar30Sse t o 15 (set1epi16 1023)

/-- `sse_convolve_horizontal_rgba_rows_ar30`: `PRECISION = 16`, `v_cut_off = _mm_set1_epi32(1023)`
(`src/sse/horizontal_ar30.rs:337-342`). -/
def ar30Row (t : Rgb30) (o : Ar30Order) : List ℕ → List ℕ → List ℤ → Bounds → Option (List (List ℕ)) :=
  ar30Sse t o 16 (set1epi32 1023)

/-! ### vertical -/

/-- The accumulators `(v0, v1), (v2, v3), (v4, v5)`. -/
abbrev Acc30 := (Reg × Reg) × (Reg × Reg) × (Reg × Reg)

/-- One row for eight pixels, `src/sse/vertical_ar30.rs:86-118,160-194`. -/
def ar30Dot (t : Rgb30) (o : Ar30Order) (l0 l1 : Reg) (w : ℤ) (st : Acc30) : Acc30 :=
  let p := unzip3 t o l0 l1
  (lbDot st.1 p.1 (set1epi16 w), lbDot st.2.1 p.2.1 (set1epi16 w), lbDot st.2.2 p.2.2 (set1epi16 w))

/-- `_mm_set1_epi32(RND_CONST)`, six times: `src/sse/vertical_ar30.rs:69-70,78-83,152-157`. -/
def ar30Init : Acc30 :=
  let v := set1epi32 (2 ^ (15 - 1) - 1)
  ((v, v), (v, v), (v, v))

/-- `_mm_min_epi16(_mm_packus_epi32(srai(a), srai(b)), v_max)`. -/
def ar30Plane (st : Reg × Reg) : Reg :=
  min16 (packus32 (srai32 15 st.1) (srai32 15 st.2)) (set1epi16 1023)

/-- The eight pixels from the accumulators, `src/sse/vertical_ar30.rs:121-136,197-210`. -/
def ar30Narrow (t : Rgb30) (o : Ar30Order) (st : Acc30) : List ℕ :=
  zip4 t o (ar30Plane st.1) (ar30Plane st.2.1) (ar30Plane st.2.2)

/-- Eight pixels from column `x`, `src/sse/vertical_ar30.rs:72-140`. -/
def ar30Block (t : Rgb30) (o : Ar30Order) (b : Bounds) (src : List ℕ) (stride : ℕ) (weight : List ℤ) (x : ℕ)
    (dst : List ℕ) : Option (List ℕ) := do
  let st ← forRange 0 (min b.size weight.length) (fun j st => do
    let w ← weight[j]?
    let l0 ← load128 src (stride * (b.start + j) + x * 4)
    let l1 ← load128 src (stride * (b.start + j) + x * 4 + 16)
    some (ar30Dot t o l0 l1 w st)) ar30Init
  writeAt? dst (x * 4) (ar30Narrow t o st)

/-- The last `diff ≤ 8` pixels, `src/sse/vertical_ar30.rs:142-214`: `diff * 4` bytes of the row are copied over
the zeroes of `src_transient` (every iteration overwrites the same bytes), and `diff * 4` bytes of
`dst_transient` are copied out. -/
def ar30Tail (t : Rgb30) (o : Ar30Order) (b : Bounds) (src : List ℕ) (stride : ℕ) (weight : List ℤ) (diff x : ℕ)
    (dst : List ℕ) : Option (List ℕ) := do
  let st ← forRange 0 (min b.size weight.length) (fun j st => do
    let w ← weight[j]?
    let s ← loadBytes src (stride * (b.start + j) + x * 4) (diff * 4)
    let transient := s ++ List.replicate (32 - diff * 4) 0
    some (ar30Dot t o (transient.take 16) (transient.drop 16) w st)) ar30Init
  writeAt? dst (x * 4) ((ar30Narrow t o st).take (diff * 4))

/-- `sse_column_handler_fixed_point_ar30_impl`, `src/sse/vertical_ar30.rs:54-215`. -/
def sseColumn30 (t : Rgb30) (o : Ar30Order) (b : Bounds) (src dst : List ℕ) (stride : ℕ) (weight : List ℤ) :
    Option (List ℕ) := do
  let total := dst.length / 4
  let (cx, d) ← whileBlocks 8 8 total (ar30Block t o b src stride weight) total 0 dst
  if cx < total then ar30Tail t o b src stride weight (total - cx) cx d else some d

/-! ### selection, and the resize -/

/-- `convolve_horizontal_dispatch_ar30` on `x86_64`, `src/dispatch_group_ar30.rs:42-195`: the SSE4.1 handlers
when SSE4.1 is detected, the portable ones otherwise. -/
def horizontal30X86 (cpu : Cpu) (t : Rgb30) (o : Ar30Order) (src : List ℕ) (srcStride : ℕ) (fw : FilterWeights ℚ)
    (dst : List ℕ) (dstStride : ℕ) : Option (List ℕ) :=
  if cpu.sse41 then do
    let approx := numericalApproximation F32.rnd fw
    let d ← horizontalDispatch 4 (image30 src 0 0 srcStride) (image30 dst 0 0 dstStride)
      (some fun s ss d ds => simdRows4 4 (ar30Rows4 t o s) ss d ds approx)
      (fun s d => simdRow 4 (ar30Row t o s) d approx)
    some d.buffer
  else horizontal30 ⟨.little, t, o⟩ src srcStride fw dst dstStride

/-- `convolve_vertical_dispatch_ar30` on `x86_64`, `src/dispatch_group_ar30.rs:197-321`. -/
def vertical30X86 (cpu : Cpu) (t : Rgb30) (o : Ar30Order) (src : List ℕ) (srcStride : ℕ) (fw : FilterWeights ℚ)
    (dst : List ℕ) (dstStride width : ℕ) : Option (List ℕ) :=
  if cpu.sse41 then do
    let approx := numericalApproximation F32.rnd fw
    let d ← verticalDispatch 4 (image30 src 0 0 srcStride) (image30 dst width 0 dstStride)
      approx.bounds approx.alignedSize approx.weights (fun b s d ss w => sseColumn30 t o b s d ss w)
    some d.buffer
  else vertical30 ⟨.little, t, o⟩ src srcStride fw dst dstStride width

/-- `resize_ar30_impl`, `src/resize_ar30.rs:38-167`, on `x86_64`: the text of `resize30` with the passes
above. -/
def resize30X86 (cpu : Cpu) (W : ℕ) (t : Rgb30) (o : Ar30Order) (L : Lib) (r : ResamplingFunction)
    (src dst : Image ℕ) : Option (Except Err Unit × List ℕ) :=
  match check30 W src dst with
  | .error e => some (.error e, dst.buffer)
  | .ok () =>
    if src.width = dst.width ∧ src.height = dst.height then
      some (.ok (), overwrite src.buffer dst.buffer)
    else if r = .nearest then do
      let d ← resizeNearest F32.rnd 4 src.buffer src.stride src.height dst.buffer dst.stride dst.height
      some (.ok (), d)
    else if src.height ≠ dst.height ∧ src.width = dst.width then do
      let vf ← tableOf L r src.height dst.height
      let d ← vertical30X86 cpu t o src.buffer src.stride vf dst.buffer src.stride src.width
      some (.ok (), d)
    else if src.height ≠ dst.height then do
      if W ≤ src.width * dst.height * 4 then none else
      let vf ← tableOf L r src.height dst.height
      let v ← vertical30X86 cpu t o src.buffer src.stride vf (List.replicate (src.width * dst.height * 4) 0)
        (src.width * 4) src.width
      let hf ← tableOf L r src.width dst.width
      let d ← horizontal30X86 cpu t o v (src.width * 4) hf dst.buffer dst.stride
      some (.ok (), d)
    else do
      let hf ← tableOf L r src.width dst.width
      let d ← horizontal30X86 cpu t o src.buffer src.stride hf dst.buffer dst.stride
      some (.ok (), d)

end PicScale
