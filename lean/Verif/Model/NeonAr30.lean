import Verif.Model.Ar30
import Verif.Model.NeonU16
import Verif.Model.NeonU8

/-!
The packed 10-bit passes on aarch64 with NEON: `src/neon/ar30.rs`, `src/neon/horizontal_ar30.rs`,
`src/neon/horizontal_ar30_rdm.rs`, `src/neon/vertical_ar30.rs`, `src/neon/vertical_ar30_rdm.rs`, and the selection in
`src/dispatch_group_ar30.rs` (default features, so `rdm` is compiled in; little endian).

A register of `u32` lanes is the list of its words, a register of 16-bit lanes the list of its lanes. All samples are
at most 1023, so the reinterpretations between `u16` and `i16` lanes are the identity on them.
-/

namespace PicScale

/-! ### `src/neon/ar30.rs` -/

/-- `vld1q_u32` (`n = 4`), `vld1q_u32_x2` (`n = 8`) and `u32::from_ne_bytes` of four bytes (`n = 1`): `n` words at byte
`off`. -/
def vldWords (src : List ℕ) (off n : ℕ) : Option (List ℕ) := do
  let l ← loadBytes src off (4 * n)
  some ((List.range n).map fun i =>
    fromNeBytes .little (l.getD (4 * i) 0) (l.getD (4 * i + 1) 0) (l.getD (4 * i + 2) 0) (l.getD (4 * i + 3) 0))

/-- `if AR30_ORDER == 0 { v } else { vrev128_u32(v) }`, one lane; `vrev128_u32` (`src/neon/ar30.rs:32-35`) reverses the
bytes of every 32-bit lane. -/
def vorder (o : Ar30Order) (w : ℕ) : ℕ :=
  match o with
  | .host => w
  | .network => swapBytes w

/-- Lane `c` of the three planes of `vunzips_3_ar30` and `vunzip_3_ar30`, `src/neon/ar30.rs:37-75,139-185`: shift and
mask by `0x3ff` (no shift for red of AR30). -/
def vfield (t : Rgb30) (o : Ar30Order) (c : ℕ) (w : ℕ) : ℕ :=
  let v := vorder o w
  match t with
  | .ar30 => if c = 0 then v &&& 0x3ff else if c = 1 then (v >>> 10) &&& 0x3ff else (v >>> 20) &&& 0x3ff
  | .ra30 => if c = 0 then (v >>> 22) &&& 0x3ff else if c = 1 then (v >>> 12) &&& 0x3ff else (v >>> 2) &&& 0x3ff

/-- The planes `r, g, b`. -/
def vunzip3 (t : Rgb30) (o : Ar30Order) (ws : List ℕ) : List ℕ × List ℕ × List ℕ :=
  (ws.map (vfield t o 0), ws.map (vfield t o 1), ws.map (vfield t o 2))

/-- `vtrn_s16`, `vtrnq_s16`: the even lanes of both, interleaved; the odd lanes of both, interleaved. -/
def vtrn16 (a b : List ℕ) : List ℕ × List ℕ :=
  ((List.range (a.length / 2)).flatMap fun i => [a.getD (2 * i) 0, b.getD (2 * i) 0],
    (List.range (a.length / 2)).flatMap fun i => [a.getD (2 * i + 1) 0, b.getD (2 * i + 1) 0])

/-- `vtrn_s32`, `vtrnq_s32` on registers given by their 16-bit lanes. -/
def vtrn32 (a b : List ℕ) : List ℕ × List ℕ :=
  ((List.range (a.length / 4)).flatMap fun i =>
      [a.getD (4 * i) 0, a.getD (4 * i + 1) 0, b.getD (4 * i) 0, b.getD (4 * i + 1) 0],
    (List.range (a.length / 4)).flatMap fun i =>
      [a.getD (4 * i + 2) 0, a.getD (4 * i + 3) 0, b.getD (4 * i + 2) 0, b.getD (4 * i + 3) 0])

/-- `k0, k1, k2, k3` of `vunzip_3_ar30_separate` (`src/neon/ar30.rs:255-270`, eight words) and of
`vunzips_4_ar30_separate` (`:272-287`, four words; their fourth plane is `vdup_n_s16(3)`). -/
def vseparate (t : Rgb30) (o : Ar30Order) (ws : List ℕ) : List ℕ × List ℕ × List ℕ × List ℕ :=
  let v := vunzip3 t o ws
  let a0 := vtrn16 v.1 v.2.1
  let a1 := vtrn16 v.2.2 (List.replicate ws.length 3)
  let v1 := vtrn32 a0.1 a1.1
  let v2 := vtrn32 a0.2 a1.2
  (v1.1, v2.1, v1.2, v2.2)

/-- `int16x8x2_t(vcombine_s16(k0, k1), vcombine_s16(k2, k3))`, `src/neon/ar30.rs:286`. -/
def vseparate4 (t : Rgb30) (o : Ar30Order) (ws : List ℕ) : List ℕ × List ℕ :=
  let k := vseparate t o ws
  (k.1 ++ k.2.1, k.2.2.1 ++ k.2.2.2)

/-- `vzip_4_ar30`, `src/neon/ar30.rs:289-366`, one word (the fourth plane is not used). -/
def vzipWord (t : Rgb30) (o : Ar30Order) (r g b : ℕ) : ℕ :=
  vorder o (match t with
    | .ar30 => ((3 * 2 ^ 30 ||| b * 2 ^ 20) ||| g * 2 ^ 10) ||| r
    | .ra30 => ((3 ||| r * 2 ^ 22) ||| g * 2 ^ 12) ||| b * 2 ^ 2)

/-- The words of `vzip_4_ar30`, stored. -/
def vzipStore (t : Rgb30) (o : Ar30Order) (r g b : List ℕ) : List ℕ :=
  (List.range r.length).flatMap fun i =>
    toNeBytes .little (vzipWord t o (r.getD i 0) (g.getD i 0) (b.getD i 0))

/-- `vld1_ar30_s16`, `src/neon/ar30.rs:368-383`: one pixel as four lanes. -/
def vld1Px (t : Rgb30) (o : Ar30Order) (w : ℕ) : List ℕ :=
  let u := unpack30 .little t o w
  [u.getD 0 0, u.getD 1 0, u.getD 2 0, 1023]

/-- `vextract_ar30` and the store of its lane 0, `src/neon/ar30.rs:385-432`: the 64-bit shifts by 16 and 32 and the mask
`0x3ff` take the low ten bits of lanes 0, 1, 2. -/
def vextract (t : Rgb30) (o : Ar30Order) (lanes : List ℕ) : List ℕ :=
  let r := lanes.getD 0 0 &&& 0x3ff
  let g := lanes.getD 1 0 &&& 0x3ff
  let b := lanes.getD 2 0 &&& 0x3ff
  toNeBytes .little (vorder o (match t with
    | .ar30 => ((3 * 2 ^ 30 ||| b * 2 ^ 20) ||| g * 2 ^ 10) ||| r
    | .ra30 => ((3 ||| b * 2 ^ 2) ||| g * 2 ^ 12) ||| r * 2 ^ 22))

/-! ### `src/neon/horizontal_ar30.rs` -/

/-- The weights and the words of a step over `n` pixels. -/
def ar30Load (n : ℕ) (core : List ℤ → List ℕ → List ℤ → List ℤ) (src : List ℕ) (w : List ℤ) (b : Bounds)
    (jx off : ℕ) (store : List ℤ) : Option (List ℤ) := do
  let ws ← loadW16 w jx n
  let px ← vldWords src (off + (b.start + jx) * 4) n
  some (core ws px store)

/-- `conv_horiz_rgba_1_u8_i16`, `src/neon/horizontal_ar30.rs:35-45`. -/
def ar30N1 (t : Rgb30) (o : Ar30Order) (ws : List ℤ) (px : List ℕ) (store : List ℤ) : List ℤ :=
  vtapLane tapQ store (vld1Px t o (px.getD 0 0)) (ws.getD 0 0)

/-- `conv_horiz_rgba_8_u8_i16`, `src/neon/horizontal_ar30.rs:47-68`; `take 4` is `vget_low_s16`, `drop 4` the `_high`
forms. -/
def ar30N8 (t : Rgb30) (o : Ar30Order) (ws : List ℤ) (px : List ℕ) (store : List ℤ) : List ℤ :=
  let p := vseparate t o px
  let v := vtapLane tapQ store (p.1.take 4) (ws.getD 0 0)
  let v := vtapLane tapQ v (p.2.1.drop 4) (ws.getD 1 0)
  let v := vtapLane tapQ v (p.2.1.take 4) (ws.getD 2 0)
  let v := vtapLane tapQ v (p.2.1.drop 4) (ws.getD 3 0)
  let v := vtapLane tapQ v (p.2.2.1.take 4) (ws.getD 4 0)
  let v := vtapLane tapQ v (p.2.2.1.drop 4) (ws.getD 5 0)
  let v := vtapLane tapQ v (p.2.2.2.take 4) (ws.getD 6 0)
  vtapLane tapQ v (p.2.2.2.drop 4) (ws.getD 7 0)

/-- `conv_horiz_rgba_4_u8_i16`, `src/neon/horizontal_ar30.rs:70-86`. -/
def ar30N4 (t : Rgb30) (o : Ar30Order) (ws : List ℤ) (px : List ℕ) (store : List ℤ) : List ℤ :=
  let p := vseparate4 t o px
  let v := vtapLane tapQ store (p.1.take 4) (ws.getD 0 0)
  let v := vtapLane tapQ v (p.2.drop 4) (ws.getD 1 0)
  let v := vtapLane tapQ v (p.2.take 4) (ws.getD 2 0)
  vtapLane tapQ v (p.2.drop 4) (ws.getD 3 0)

/-- `neon_convolve_horizontal_rgba_rows_4_impl` and `neon_convolve_horizontal_rgba_row_impl`,
`src/neon/horizontal_ar30.rs:108-266,284-362`: `vqshrun_n_s32::<16>`, `vmin_u16(1023)`, `vextract_ar30`. -/
def ar30Neon (t : Rgb30) (o : Ar30Order) (src : List ℕ) (offs : List ℕ) (w : List ℤ) (b : Bounds) :
    Option (List (List ℕ)) := do
  let st := offs.map fun _ => List.replicate 4 NEON16_ROUNDING
  let (jx, st) ← rowsLoop 8 8 b.size offs (ar30Load 8 (ar30N8 t o) src w b) 0 st
  let (jx, st) ← rowsLoop 4 4 b.size offs (ar30Load 4 (ar30N4 t o) src w b) jx st
  let (_, st) ← rowsLoop 0 1 b.size offs (ar30Load 1 (ar30N1 t o) src w b) jx st
  some (st.map fun acc => vextract t o (acc.map (narrowQ 10)))

/-! ### `src/neon/horizontal_ar30_rdm.rs` -/

/-- One lane of `vqrdmlah_s16(a, vshl_n_s16::<s>(p), w)`. -/
def tapRdm (s : ℕ) (a : ℤ) (p : ℕ) (w : ℤ) : ℤ := vqrdmlah1 a (i16 ((p : ℤ) * 2 ^ s)) (i16 w)

/-- One lane of `vqrdmulh_s16(vshl_n_s16::<s>(p), w)`. -/
def mulRdm (s : ℕ) (p : ℕ) (w : ℤ) : ℤ := sat16 ((2 * (i16 ((p : ℤ) * 2 ^ s) * i16 w) + 32768) >>> 16)

/-- `vcombine_s16(u, v)` of two broadcast weights. -/
def wPair (u v : ℤ) : List ℤ := List.replicate 4 u ++ List.replicate 4 v

/-- `vadd_s16(vadd_s16(store, vget_low_s16(product)), vget_high_s16(product))`. -/
def foldHalves (store product : List ℤ) : List ℤ := vadd16 (vadd16 store (product.take 4)) (product.drop 4)

/-- `conv_horiz_rgba_1_u8_i16`, `src/neon/horizontal_ar30_rdm.rs:35-50` (`SCALE = 4`). -/
def ar30R1 (t : Rgb30) (o : Ar30Order) (ws : List ℤ) (px : List ℕ) (store : List ℤ) : List ℤ :=
  vtapLane (tapRdm 4) store (vld1Px t o (px.getD 0 0)) (ws.getD 0 0)

/-- `conv_horiz_rgba_8_u8_i16`, `src/neon/horizontal_ar30_rdm.rs:52-84`. -/
def ar30R8 (t : Rgb30) (o : Ar30Order) (ws : List ℤ) (px : List ℕ) (store : List ℤ) : List ℤ :=
  let p := vseparate t o px
  let v := List.zipWith (mulRdm 4) p.2.1 (wPair (ws.getD 2 0) (ws.getD 3 0))
  let v := vtap (tapRdm 4) v p.1 (wPair (ws.getD 0 0) (ws.getD 1 0))
  let v := vtap (tapRdm 4) v p.2.2.2 (wPair (ws.getD 6 0) (ws.getD 7 0))
  let v := vtap (tapRdm 4) v p.2.2.1 (wPair (ws.getD 4 0) (ws.getD 5 0))
  foldHalves store v

/-- `conv_horiz_rgba_4_u8_i16`, `src/neon/horizontal_ar30_rdm.rs:86-116`. -/
def ar30R4 (t : Rgb30) (o : Ar30Order) (ws : List ℤ) (px : List ℕ) (store : List ℤ) : List ℤ :=
  let p := vseparate4 t o px
  let v := List.zipWith (mulRdm 4) p.2 (wPair (ws.getD 2 0) (ws.getD 3 0))
  let v := vtap (tapRdm 4) v p.1 (wPair (ws.getD 0 0) (ws.getD 1 0))
  foldHalves store v

/-- `vmin_s16(vshl_s16(vmax_s16(store, 0), -4), 1023)`, one of the lanes 0, 1, 2; lane 3 is shifted by 12 and cut off at
3 (`src/neon/horizontal_ar30_rdm.rs:152,165-173`), but `vextract_ar30` does not read it. -/
def narrowRdm (v : ℤ) : ℕ := (min (max v 0 >>> 4) 1023 : ℤ).toNat

/-- `neon_convolve_horizontal_rgba_rows_4_impl`, `src/neon/horizontal_ar30_rdm.rs:137-348`. -/
def ar30Rdm (t : Rgb30) (o : Ar30Order) (src : List ℕ) (offs : List ℕ) (w : List ℤ) (b : Bounds) :
    Option (List (List ℕ)) := do
  let st := offs.map fun _ => [8, 8, 8, 2048]
  let (jx, st) ← rowsLoop 8 8 b.size offs (ar30Load 8 (ar30R8 t o) src w b) 0 st
  let (jx, st) ← rowsLoop 4 4 b.size offs (ar30Load 4 (ar30R4 t o) src w b) jx st
  let (_, st) ← rowsLoop 0 1 b.size offs (ar30Load 1 (ar30R1 t o) src w b) jx st
  some (st.map fun acc => vextract t o (acc.map narrowRdm))

/-! ### `src/neon/vertical_ar30.rs` -/

/-- The accumulators of the three planes. -/
abbrev Planes := List ℤ × List ℤ × List ℤ

/-- One row: multiply accumulate in every lane of every plane. -/
def planesTap (tap : ℤ → ℕ → ℤ → ℤ) (t : Rgb30) (o : Ar30Order) (ws : List ℕ) (w : ℤ) (st : Planes) : Planes :=
  let p := vunzip3 t o ws
  (vtapLane tap st.1 p.1 w, vtapLane tap st.2.1 p.2.1 w, vtapLane tap st.2.2 p.2.2 w)

/-- Eight pixels from the accumulators. -/
def planesStore (fin : ℤ → ℕ) (t : Rgb30) (o : Ar30Order) (st : Planes) : List ℕ :=
  vzipStore t o (st.1.map fin) (st.2.1.map fin) (st.2.2.map fin)

/-- `vdupq_n_s32(RND_CONST)`, six times. -/
def planesInit : Planes :=
  (List.replicate 8 NEON16_ROUNDING, List.replicate 8 NEON16_ROUNDING, List.replicate 8 NEON16_ROUNDING)

/-- Eight pixels from column `x`, `src/neon/vertical_ar30.rs:66-118`. -/
def ar30NeonBlock (t : Rgb30) (o : Ar30Order) (b : Bounds) (src : List ℕ) (stride : ℕ) (weight : List ℤ) (x : ℕ)
    (dst : List ℕ) : Option (List ℕ) := do
  let st ← forRange 0 (min b.size weight.length) (fun j st => do
    let w ← weight[j]?
    let ws ← vldWords src (stride * (b.start + j) + x * 4) 8
    some (planesTap tapQ t o ws w st)) planesInit
  writeAt? dst (x * 4) (planesStore (narrowQ 10) t o st)

/-- The last `diff ≤ 8` pixels, `src/neon/vertical_ar30.rs:122-179`: the words that are not loaded are the zeroes of
`src_transient`; `diff * 4` bytes are copied out. -/
def ar30NeonTail (t : Rgb30) (o : Ar30Order) (b : Bounds) (src : List ℕ) (stride : ℕ) (weight : List ℤ) (diff x : ℕ)
    (dst : List ℕ) : Option (List ℕ) := do
  let st ← forRange 0 (min b.size weight.length) (fun j st => do
    let w ← weight[j]?
    let ws ← vldWords src (stride * (b.start + j) + x * 4) diff
    some (planesTap tapQ t o (ws ++ List.replicate (8 - diff) 0) w st)) planesInit
  writeAt? dst (x * 4) ((planesStore (narrowQ 10) t o st).take (diff * 4))

/-- `neon_column_handler_fixed_point_ar30_impl`, `src/neon/vertical_ar30.rs:49-180`. -/
def neonColumn30 (t : Rgb30) (o : Ar30Order) (b : Bounds) (src dst : List ℕ) (stride : ℕ) (weight : List ℤ) :
    Option (List ℕ) := do
  let total := dst.length / 4
  let (cx, d) ← whileBlocks 8 8 total (ar30NeonBlock t o b src stride weight) total 0 dst
  if cx < total then ar30NeonTail t o b src stride weight (total - cx) cx d else some d

/-! ### `src/neon/vertical_ar30_rdm.rs` -/

/-- `vmaxq_s16(vminq_s16(vrshrq_n_s16::<5>(v), 1023), 0)`, one lane; `src/neon/vertical_ar30_rdm.rs:175-181`. -/
def narrowRdm5 (v : ℤ) : ℕ := (max (min ((v + 16) >>> 5) 1023) 0 : ℤ).toNat

/-- `vqrdmulhq_s16` of the first row. -/
def planesMul (t : Rgb30) (o : Ar30Order) (ws : List ℕ) (w : ℤ) : Planes :=
  let p := vunzip3 t o ws
  (p.1.map fun v => mulRdm 5 v w, p.2.1.map fun v => mulRdm 5 v w, p.2.2.map fun v => mulRdm 5 v w)

/-- Eight pixels from column `x`, `src/neon/vertical_ar30_rdm.rs:75-186`. The cases `bounds_size` 2, 3, 4 write out the
iterations of the last branch; all of them are the loop from 1 here. -/
def ar30RdmBlock (t : Rgb30) (o : Ar30Order) (b : Bounds) (src : List ℕ) (stride : ℕ) (weight : List ℤ) (x : ℕ)
    (dst : List ℕ) : Option (List ℕ) := do
  let w0 ← weight[0]?
  let l0 ← vldWords src (stride * b.start + x * 4) 8
  let st ← forRange 1 (min b.size weight.length) (fun j st => do
    let w ← weight[j]?
    let ws ← vldWords src (stride * (b.start + j) + x * 4) 8
    some (planesTap (tapRdm 5) t o ws w st)) (planesMul t o l0 w0)
  writeAt? dst (x * 4) (planesStore narrowRdm5 t o st)

/-- `neon_column_handler_fixed_point_ar30_impl`, `src/neon/vertical_ar30_rdm.rs:56-206`: eight pixels while more than
eight are left, then the portable code for four pixels while more than four are left, and for single pixels. -/
def rdmColumn30 (t : Rgb30) (o : Ar30Order) (b : Bounds) (src dst : List ℕ) (stride : ℕ) (weight : List ℤ) :
    Option (List ℕ) := do
  let total := dst.length / 4
  let (cx, d) ← whileBlocks 8 8 total (ar30RdmBlock t o b src stride weight) total 0 dst
  let (cx, d) ← whileBlocks 4 4 total (columnBlock30 ⟨.little, t, o⟩ 1 4 src stride weight b) total cx d
  let (_, d) ← whileBlocks 0 1 total (columnBlock30 ⟨.little, t, o⟩ 1 1 src stride weight b) total cx d
  some d

/-! ### selection, and the resize -/

/-- Are the `rdm` handlers selected? `PreferSpeed` on a processor with the `rdm` instructions;
`src/dispatch_group_ar30.rs:62-87,133-156,223-251,277-303`. -/
def useRdm30 (rdm : Bool) (s : Workload) : Bool :=
  match s with
  | .preferSpeed => rdm
  | .preferQuality => false

/-- `convolve_horizontal_dispatch_ar30` on aarch64, `src/dispatch_group_ar30.rs:42-195`: rows left over from the groups of
four always go through `neon_convolve_horizontal_rgba_rows_ar30` (`:107-112,175-179`). -/
def horizontal30Neon (rdm : Bool) (s : Workload) (t : Rgb30) (o : Ar30Order) (src : List ℕ) (srcStride : ℕ)
    (fw : FilterWeights ℚ) (dst : List ℕ) (dstStride : ℕ) : Option (List ℕ) := do
  let approx := numericalApproximation F32.rnd fw
  let rows4 := fun s' => if useRdm30 rdm s then ar30Rdm t o s' else ar30Neon t o s'
  let d ← horizontalDispatch 4 (image30 src 0 0 srcStride) (image30 dst 0 0 dstStride)
    (some fun s' ss d ds => simdRows4 4 (rows4 s') ss d ds approx)
    (fun s' d => simdRow 4 (ar30Neon t o s') d approx)
  some d.buffer

/-- `convolve_vertical_dispatch_ar30` on aarch64, `src/dispatch_group_ar30.rs:197-321`. -/
def vertical30Neon (rdm : Bool) (s : Workload) (t : Rgb30) (o : Ar30Order) (src : List ℕ) (srcStride : ℕ)
    (fw : FilterWeights ℚ) (dst : List ℕ) (dstStride width : ℕ) : Option (List ℕ) := do
  let approx := numericalApproximation F32.rnd fw
  let d ← verticalDispatch 4 (image30 src 0 0 srcStride) (image30 dst width 0 dstStride)
    approx.bounds approx.alignedSize approx.weights
    (fun b s' d ss w => if useRdm30 rdm s then rdmColumn30 t o b s' d ss w else neonColumn30 t o b s' d ss w)
  some d.buffer

/-- `resize_ar30_impl`, `src/resize_ar30.rs:38-167`, on aarch64: the text of `resize30` with the passes above. `s` is the
scaler's workload strategy. -/
def resize30Neon (rdm : Bool) (s : Workload) (W : ℕ) (t : Rgb30) (o : Ar30Order) (L : Lib) (r : ResamplingFunction)
    (src dst : Image ℕ) : Option (Except Err Unit × List ℕ) :=
  match check30 W src dst with
  | .error e => some (.error e, dst.buffer)
  | .ok () =>
    if src.width = dst.width ∧ src.height = dst.height then
      some (.ok (), overwrite src.buffer dst.buffer)
    else if r = .nearest then do
      let d ← resizeNearest F32.rnd 4 src.buffer src.stride src.height dst.buffer dst.stride dst.height
      some (.ok (), d)
    else if src.height ≠ dst.height ∧ src.width = dst.width then do
      let vf ← tableOf L r src.height dst.height
      let d ← vertical30Neon rdm s t o src.buffer src.stride vf dst.buffer src.stride src.width
      some (.ok (), d)
    else if src.height ≠ dst.height then do
      if W ≤ src.width * dst.height * 4 then none else
      let vf ← tableOf L r src.height dst.height
      let v ← vertical30Neon rdm s t o src.buffer src.stride vf (List.replicate (src.width * dst.height * 4) 0)
        (src.width * 4) src.width
      let hf ← tableOf L r src.width dst.width
      let d ← horizontal30Neon rdm s t o v (src.width * 4) hf dst.buffer dst.stride
      some (.ok (), d)
    else do
      let hf ← tableOf L r src.width dst.width
      let d ← horizontal30Neon rdm s t o src.buffer src.stride hf dst.buffer dst.stride
      some (.ok (), d)

end PicScale
