import Verif.Model.SimdHorizontal

/-!
The aarch64 NEON 8-bit handlers: `src/neon/rgba_u8.rs`, `src/neon/rgb_u8.rs`, `src/neon/plane_u8.rs`,
`src/neon/vertical_u8.rs` (32-bit accumulators) and the `rdm` ones with 16-bit accumulators,
`src/neon/rgba_u8_rdm.rs`, `src/neon/rgb_u8_sqrdml.rs`, `src/neon/plane_u8_rdm.rs`,
`src/neon/cbcr8_rdm.rs`, `src/neon/vertical_u8_rdm.rs`, with the helpers of `src/neon/utils.rs`.

A register of signed lanes is the list of its lane values, a register of bytes the list of its bytes;
reinterpretations between them are the identity except where a table lookup doubles bytes, which is
`expand14`. `#[target_feature(enable = "rdm")]` functions are only selected if the CPU has `rdm`
(`Model/NeonU8.lean`).

As for x86, the four-row and one-row functions of a handler have the same loops and are one function
here over the row offsets (`rowsLoop`, `Model/SimdHorizontal.lean`).
-/

namespace PicScale

/-- Saturation to `i32`. -/
def sat32 (v : ℤ) : ℤ := max (-2147483648) (min v 2147483647)
/-- Saturation to `i16`. -/
def sat16 (v : ℤ) : ℤ := max (-32768) (min v 32767)

/-- One lane of `vqdmlal_*`: saturating doubling product, saturating accumulation. -/
def vqdmlal1 (a b c : ℤ) : ℤ := sat32 (a + sat32 (2 * b * c))
/-- One lane of `vmlal_*`: wrapping. -/
def vmlal1 (a b c : ℤ) : ℤ := i32 (a + b * c)
/-- One lane of `vxmlal_*::<D>`, `src/neon/utils.rs:196-271`. -/
def vxmlal1 (D : Bool) (a b c : ℤ) : ℤ := if D then vqdmlal1 a b c else vmlal1 a b c
/-- One lane of `vqrdmlah_*`: saturating rounding doubling multiply accumulate, high half. -/
def vqrdmlah1 (a b c : ℤ) : ℤ := sat16 ((a * 65536 + 2 * (b * c) + 32768) >>> 16)
/-- A byte zipped with itself, as `u16`, shifted right by 2: `expand8_to_14`, `expand8_high_to_14`,
`src/neon/utils.rs:34-43`. -/
def expand14 (p : ℕ) : ℤ := (((p * 256 + p) >>> 2 : ℕ) : ℤ)

/-- A byte lane (widened by `vmovl_u8`) multiplied into a 32-bit accumulator lane. -/
def tapX (D : Bool) (a : ℤ) (p : ℕ) (w : ℤ) : ℤ := vxmlal1 D a (p : ℤ) w
/-- A byte lane (widened by `expand8_to_14`) multiplied into a 16-bit accumulator lane. -/
def tapR (a : ℤ) (p : ℕ) (w : ℤ) : ℤ := vqrdmlah1 a (expand14 p) w

/-- Lanewise multiply accumulate. -/
def vtap (tap : ℤ → ℕ → ℤ → ℤ) : List ℤ → List ℕ → List ℤ → List ℤ
  | a :: as, p :: ps, w :: ws => tap a p w :: vtap tap as ps ws
  | _, _, _ => []

/-- Multiply accumulate with the same weight (`_lane`, `_laneq` forms, or a broadcast) in all lanes. -/
def vtapLane (tap : ℤ → ℕ → ℤ → ℤ) (acc : List ℤ) (px : List ℕ) (w : ℤ) : List ℤ :=
  List.zipWith (fun a p => tap a p w) acc px

/-- The `i`-th group of four bytes (`vget_low`/`_high` of the widened halves). -/
def quad (px : List ℕ) (i : ℕ) : List ℕ := (px.drop (4 * i)).take 4
/-- The `i`-th group of eight. -/
def octet {α : Type} (px : List α) (i : ℕ) : List α := (px.drop (8 * i)).take 8

/-- `vqtbl1q_u8` of weights with a table of byte pairs, i.e. of whole 16-bit lanes: lane numbers;
an index past the table gives 0. -/
def tblW (ws : List ℤ) (idx : List ℕ) : List ℤ := idx.map fun i => ws.getD i 0
/-- `vqtbl1q_u8`/`vtbl1_u8` of bytes; an index past the table gives 0. -/
def tblB (px : List ℕ) (idx : List ℕ) : List ℕ := idx.map fun i => px.getD i 0

/-- `vadd_s16`. -/
def vadd16 (a b : List ℤ) : List ℤ := List.zipWith (fun x y => i16 (x + y)) a b

/-- `PRECISION` of the two instantiations: `<false, 15>` and `<true, 16>`,
`src/neon/rgba_u8.rs:129,145`. -/
def neonPrec (D : Bool) : ℕ := if D then 16 else 15
/-- `rnd_const = (1 << (PRECISION - 1)) - 1`, `src/neon/rgba_u8.rs:163`, `src/neon/rgb_u8.rs:162`,
`src/neon/plane_u8.rs:142`, `src/neon/vertical_u8.rs:127`. -/
def neonRnd (D : Bool) : ℤ := 2 ^ (neonPrec D - 1) - 1

/-- `vqshrun_n_s32::<PRECISION>` then `vqmovn_u16`. -/
def narrow32 (D : Bool) (v : ℤ) : ℕ := (min (max 0 (min (v >>> neonPrec D) 65535)) 255 : ℤ).toNat
/-- `vqshrun_n_s16::<6>`, or `vshr_n_s16::<6>` then `vqmovun_s16`. -/
def narrow16 (v : ℤ) : ℕ := (max 0 (min (v >>> 6) 255) : ℤ).toNat

/-- Load of `n` weights. -/
def loadW16 (w : List ℤ) (jx n : ℕ) : Option (List ℤ) := slice? w jx (jx + n)

/-- One iteration of a horizontal loop: `nw` weights and the bytes of the pixels `jx, …` of the window are
loaded with one vector load of `n` bytes (or partial loads that add up to it), then multiplied in. -/
def pixels1 (N nw n : ℕ) (core : List ℤ → List ℕ → List ℤ → List ℤ) (src : List ℕ) (w : List ℤ) (b : Bounds)
    (jx o : ℕ) (store : List ℤ) : Option (List ℤ) := do
  let ws ← loadW16 w jx nw
  let px ← loadBytes src (o + (b.start + jx) * N) n
  some (core ws px store)

/-- The same with two loads, of `n` and of `m` bytes. -/
def pixels2 (N nw n m : ℕ) (core : List ℤ → List ℕ → List ℕ → List ℤ → List ℤ) (src : List ℕ) (w : List ℤ)
    (b : Bounds) (jx o : ℕ) (store : List ℤ) : Option (List ℤ) := do
  let ws ← loadW16 w jx nw
  let px0 ← loadBytes src (o + (b.start + jx) * N) n
  let px1 ← loadBytes src (o + (b.start + jx) * N + n) m
  some (core ws px0 px1 store)

/-! ### `src/neon/rgba_u8.rs` -/

/-- `conv_horiz_rgba_8_u8`, `src/neon/rgba_u8.rs:39-66`. -/
def rgbaNeonCore8 (D : Bool) (ws : List ℤ) (px0 px1 : List ℕ) (store : List ℤ) : List ℤ :=
  let acc := vtapLane (tapX D) store (quad px0 3) (ws.getD 3 0)
  let acc := vtapLane (tapX D) acc (quad px0 2) (ws.getD 2 0)
  let acc := vtapLane (tapX D) acc (quad px0 1) (ws.getD 1 0)
  let acc := vtapLane (tapX D) acc (quad px0 0) (ws.getD 0 0)
  let acc := vtapLane (tapX D) acc (quad px1 3) (ws.getD 7 0)
  let acc := vtapLane (tapX D) acc (quad px1 2) (ws.getD 6 0)
  let acc := vtapLane (tapX D) acc (quad px1 1) (ws.getD 5 0)
  vtapLane (tapX D) acc (quad px1 0) (ws.getD 4 0)
/-- The loads of `rgbaNeonCore8` (8 weights, 16 + 16 bytes) and the step. -/
def rgbaNeon8 (D : Bool) := pixels2 4 8 16 16 (rgbaNeonCore8 D)

/-- `conv_horiz_rgba_4_u8`, `src/neon/rgba_u8.rs:87-105`. -/
def rgbaNeonCore4 (D : Bool) (ws : List ℤ) (px : List ℕ) (store : List ℤ) : List ℤ :=
  let acc := vtapLane (tapX D) store (quad px 3) (ws.getD 3 0)
  let acc := vtapLane (tapX D) acc (quad px 2) (ws.getD 2 0)
  let acc := vtapLane (tapX D) acc (quad px 1) (ws.getD 1 0)
  vtapLane (tapX D) acc (quad px 0) (ws.getD 0 0)
/-- The loads of `rgbaNeonCore4` (4 weights, 16 bytes) and the step. -/
def rgbaNeon4 (D : Bool) := pixels1 4 4 16 (rgbaNeonCore4 D)

/-- `conv_horiz_rgba_2_u8`, `src/neon/rgba_u8.rs:69-84`. -/
def rgbaNeonCore2 (D : Bool) (ws : List ℤ) (px : List ℕ) (store : List ℤ) : List ℤ :=
  let acc := vtapLane (tapX D) store (quad px 1) (ws.getD 1 0)
  vtapLane (tapX D) acc (quad px 0) (ws.getD 0 0)
/-- The loads of `rgbaNeonCore2` (2 weights, 8 bytes) and the step. -/
def rgbaNeon2 (D : Bool) := pixels1 4 2 8 (rgbaNeonCore2 D)

/-- `conv_horiz_rgba_1_u8`, `src/neon/rgba_u8.rs:109-120`. -/
def rgbaNeonCore1 (D : Bool) (ws : List ℤ) (px : List ℕ) (store : List ℤ) : List ℤ :=
  vtapLane (tapX D) store px (ws.getD 0 0)
/-- The loads of `rgbaNeonCore1` (1 weights, 4 bytes) and the step. -/
def rgbaNeon1 (D : Bool) := pixels1 4 1 4 (rgbaNeonCore1 D)

/-- `convolve_horizontal_rgba_neon_rows_4_u8_impl` and `convolve_horizontal_rgba_neon_row_impl`,
`src/neon/rgba_u8.rs:154-272,290-354`. -/
def rgbaNeon (D : Bool) (src : List ℕ) (offs : List ℕ) (w : List ℤ) (b : Bounds) :
    Option (List (List ℕ)) := do
  let st := offs.map fun _ => List.replicate 4 (neonRnd D)
  let (jx, st) ← rowsLoop 8 8 b.size offs (rgbaNeon8 D src w b) 0 st
  let (jx, st) ← rowsLoop 4 4 b.size offs (rgbaNeon4 D src w b) jx st
  let (jx, st) ← rowsLoop 2 2 b.size offs (rgbaNeon2 D src w b) jx st
  let (_, st) ← rowsLoop 0 1 b.size offs (rgbaNeon1 D src w b) jx st
  some (st.map fun acc => (List.range 4).map fun c => narrow32 D (acc.getD c 0))

/-! ### `src/neon/rgb_u8.rs` -/

/-- `shuffle`, `src/neon/rgb_u8.rs:155-160`, `:262-267`. -/
def rgbNeonShuffle : List ℕ := [0, 1, 2, 255, 3, 4, 5, 255, 6, 7, 8, 255, 9, 10, 11, 255]

/-- `conv_horiz_rgb_4_u8`, `src/neon/rgb_u8.rs:37-63`. -/
def rgbNeonCore4 (D : Bool) (ws : List ℤ) (lo hi : List ℕ) (store : List ℤ) : List ℤ :=
  let px := tblB (lo ++ hi ++ [0, 0, 0, 0]) rgbNeonShuffle
  let acc := vtapLane (tapX D) store (quad px 3) (ws.getD 3 0)
  let acc := vtapLane (tapX D) acc (quad px 2) (ws.getD 2 0)
  let acc := vtapLane (tapX D) acc (quad px 1) (ws.getD 1 0)
  vtapLane (tapX D) acc (quad px 0) (ws.getD 0 0)
/-- The loads of `rgbNeonCore4` (4 weights, 8 + 4 bytes) and the step. -/
def rgbNeon4 (D : Bool) := pixels2 3 4 8 4 (rgbNeonCore4 D)

/-- `conv_horiz_rgba_2_u8`, `src/neon/rgb_u8.rs:66-87`. -/
def rgbNeonCore2 (D : Bool) (ws : List ℤ) (lo hi : List ℕ) (store : List ℤ) : List ℤ :=
  let px := tblB (lo ++ hi ++ [0, 0]) (rgbNeonShuffle.take 8)
  let acc := vtapLane (tapX D) store (quad px 1) (ws.getD 1 0)
  vtapLane (tapX D) acc (quad px 0) (ws.getD 0 0)
/-- The loads of `rgbNeonCore2` (2 weights, 4 + 2 bytes) and the step. -/
def rgbNeon2 (D : Bool) := pixels2 3 2 4 2 (rgbNeonCore2 D)

/-- `conv_horiz_rgba_1_u8`, `src/neon/rgb_u8.rs:90-101`; `load_3b_as_u16x4`, `src/neon/utils.rs:153-157`. -/
def rgbNeonCore1 (D : Bool) (ws : List ℤ) (lo hi : List ℕ) (store : List ℤ) : List ℤ :=
  vtapLane (tapX D) store (lo ++ hi ++ [0]) (ws.getD 0 0)
/-- The loads of `rgbNeonCore1` (1 weights, 2 + 1 bytes) and the step. -/
def rgbNeon1 (D : Bool) := pixels2 3 1 2 1 (rgbNeonCore1 D)

/-- `convolve_horizontal_rgb_neon_rows_4_impl` and `convolve_horizontal_rgb_neon_row_one_impl`,
`src/neon/rgb_u8.rs:146-237,255-312`; `write_accumulator_u8`, `:104-112`. -/
def rgbNeon (D : Bool) (src : List ℕ) (offs : List ℕ) (w : List ℤ) (b : Bounds) :
    Option (List (List ℕ)) := do
  let st := offs.map fun _ => List.replicate 4 (neonRnd D)
  let (jx, st) ← rowsLoop 4 4 b.size offs (rgbNeon4 D src w b) 0 st
  let (jx, st) ← rowsLoop 2 2 b.size offs (rgbNeon2 D src w b) jx st
  let (_, st) ← rowsLoop 0 1 b.size offs (rgbNeon1 D src w b) jx st
  some (st.map fun acc => (List.range 3).map fun c => narrow32 D (acc.getD c 0))

/-! ### `src/neon/plane_u8.rs` -/

/-- `accumulate_16_horiz`, `src/neon/plane_u8.rs:36-52`. -/
def planeNeonCore16 (D : Bool) (ws : List ℤ) (px : List ℕ) (store : List ℤ) : List ℤ :=
  let acc := vtap (tapX D) store (quad px 3) ((ws.drop 12).take 4)
  let acc := vtap (tapX D) acc (quad px 2) ((ws.drop 8).take 4)
  let acc := vtap (tapX D) acc (quad px 1) ((ws.drop 4).take 4)
  vtap (tapX D) acc (quad px 0) (ws.take 4)
/-- The loads of `planeNeonCore16` (16 weights, 16 bytes) and the step. -/
def planeNeon16 (D : Bool) := pixels1 1 16 16 (planeNeonCore16 D)

/-- `accumulate_8_horiz`, `src/neon/plane_u8.rs:55-66`. -/
def planeNeonCore8 (D : Bool) (ws : List ℤ) (px : List ℕ) (store : List ℤ) : List ℤ :=
  let acc := vtap (tapX D) store (quad px 1) ((ws.drop 4).take 4)
  vtap (tapX D) acc (quad px 0) (ws.take 4)
/-- The loads of `planeNeonCore8` (8 weights, 8 bytes) and the step. -/
def planeNeon8 (D : Bool) := pixels1 1 8 8 (planeNeonCore8 D)

/-- One iteration of the `jx + 4 < bounds.size` loops, `src/neon/plane_u8.rs:211-229,334-343`: the loads
happen, but the callers discard what `accumulate_4_horiz` (`:69-80`) returns, so the accumulator does not
change. -/
def planeNeonCore4 (_ws : List ℤ) (_px : List ℕ) (store : List ℤ) : List ℤ :=
  store
/-- The loads of `planeNeonCore4` (4 weights, 4 bytes) and the step. -/
def planeNeon4 := pixels1 1 4 4 planeNeonCore4

/-- One iteration of the `jx < bounds.size` loops, `src/neon/plane_u8.rs:231-249,345-352`: likewise, what
`accumulate_1_horiz` (`:83-91`) returns is discarded. -/
def planeNeonCore1 (_ws : List ℤ) (_px : List ℕ) (store : List ℤ) : List ℤ :=
  store
/-- The loads of `planeNeonCore1` (1 weights, 1 bytes) and the step. -/
def planeNeon1 := pixels1 1 1 1 planeNeonCore1

/-- `(vaddvq_s32(store).max(0) >> PRECISION).min(255) as u8`, `src/neon/plane_u8.rs:251-254`. -/
def planeNarrow32 (D : Bool) (acc : List ℤ) : ℕ := (min ((max (i32 acc.sum) 0) >>> neonPrec D) 255 : ℤ).toNat

/-- `convolve_horizontal_plane_neon_rows_4_u8_impl` and `convolve_horizontal_plane_neon_row_impl`,
`src/neon/plane_u8.rs:125-272,290-360`. -/
def planeNeon (D : Bool) (src : List ℕ) (offs : List ℕ) (w : List ℤ) (b : Bounds) :
    Option (List (List ℕ)) := do
  let st := offs.map fun _ => [neonRnd D, 0, 0, 0]
  let (jx, st) ← rowsLoop 16 16 b.size offs (planeNeon16 D src w b) 0 st
  let (jx, st) ← rowsLoop 8 8 b.size offs (planeNeon8 D src w b) jx st
  let (jx, st) ← rowsLoop 4 4 b.size offs (planeNeon4 src w b) jx st
  let (_, st) ← rowsLoop 0 1 b.size offs (planeNeon1 src w b) jx st
  some (st.map fun acc => [planeNarrow32 D acc])

/-! ### `src/neon/rgba_u8_rdm.rs` -/

/-- `ROUNDING = 1 << (SCALE - 1)` with `SCALE = 6`, `src/neon/rgba_u8_rdm.rs:150-151`. -/
def RDM_ROUNDING : ℤ := 32
/-- `weights_distribute*` (`src/neon/rgba_u8_rdm.rs:153-162`) number `i`: weight `2i` in the low lanes,
`2i + 1` in the high lanes. -/
def rdmPair (i : ℕ) : List ℕ :=
  [2 * i, 2 * i, 2 * i, 2 * i, 2 * i + 1, 2 * i + 1, 2 * i + 1, 2 * i + 1]

/-- `conv_horiz_rgba_8_u8_i16`, `src/neon/rgba_u8_rdm.rs:36-60`. -/
def rgbaRdmCore8 (ws : List ℤ) (px0 px1 : List ℕ) (store : List ℤ) : List ℤ :=
  let p := vtap tapR store (octet px0 0) (tblW ws (rdmPair 0))
  let p := vtap tapR p (octet px0 1) (tblW ws (rdmPair 1))
  let p := vtap tapR p (octet px1 0) (tblW ws (rdmPair 2))
  vtap tapR p (octet px1 1) (tblW ws (rdmPair 3))
/-- The loads of `rgbaRdmCore8` (8 weights, 16 + 16 bytes) and the step. -/
def rgbaRdm8 := pixels2 4 8 16 16 rgbaRdmCore8

/-- `conv_horiz_rgba_4_u8_i16`, `src/neon/rgba_u8_rdm.rs:79-96`. -/
def rgbaRdmCore4 (ws : List ℤ) (px : List ℕ) (store : List ℤ) : List ℤ :=
  let p := vtap tapR store (octet px 0) (tblW ws (rdmPair 0))
  vtap tapR p (octet px 1) (tblW ws (rdmPair 1))
/-- The loads of `rgbaRdmCore4` (4 weights, 16 bytes) and the step. -/
def rgbaRdm4 := pixels1 4 4 16 rgbaRdmCore4

/-- `conv_horiz_rgba_2_u8_i16`, `src/neon/rgba_u8_rdm.rs:63-76`. -/
def rgbaRdmCore2 (ws : List ℤ) (px : List ℕ) (store : List ℤ) : List ℤ :=
  vtap tapR store px (tblW ws (rdmPair 0))
/-- The loads of `rgbaRdmCore2` (2 weights, 8 bytes) and the step. -/
def rgbaRdm2 := pixels1 4 2 8 rgbaRdmCore2

/-- `conv_horiz_rgba_1_u8_i16`, `src/neon/rgba_u8_rdm.rs:100-110`. -/
def rgbaRdmCore1 (ws : List ℤ) (px : List ℕ) (store : List ℤ) : List ℤ :=
  vtapLane tapR store px (ws.getD 0 0)
/-- The loads of `rgbaRdmCore1` (1 weights, 4 bytes) and the step. -/
def rgbaRdm1 := pixels1 4 1 4 rgbaRdmCore1

/-- `convolve_horizontal_rgba_neon_rows_4_u8_i16_impl` and `convolve_horizontal_rgba_neon_row_i16_impl`,
`src/neon/rgba_u8_rdm.rs:142-319,332-442`. -/
def rgbaRdm (src : List ℕ) (offs : List ℕ) (w : List ℤ) (b : Bounds) : Option (List (List ℕ)) := do
  let st := offs.map fun _ => List.replicate 4 RDM_ROUNDING ++ List.replicate 4 0
  let (jx, st) ← rowsLoop 8 8 b.size offs (rgbaRdm8 src w b) 0 st
  let (jx, st) ← rowsLoop 4 4 b.size offs (rgbaRdm4 src w b) jx st
  let (jx, st) ← rowsLoop 2 2 b.size offs (rgbaRdm2 src w b) jx st
  let st := st.map fun acc => vadd16 (acc.take 4) (acc.drop 4)
  let (_, st) ← rowsLoop 0 1 b.size offs (rgbaRdm1 src w b) jx st
  some (st.map fun acc => (List.range 4).map fun c => narrow16 (acc.getD c 0))

/-! ### `src/neon/rgb_u8_sqrdml.rs` -/

/-- `w01`, `w23` (`src/neon/rgb_u8_sqrdml.rs:147-150`) number `i`; lanes 3 and 7 are 0. -/
def rgbRdmPair (i : ℕ) : List ℕ := [2 * i, 2 * i, 2 * i, 255, 2 * i + 1, 2 * i + 1, 2 * i + 1, 255]
/-- `shuffle_lo`, `src/neon/rgb_u8_sqrdml.rs:142-143` (byte pairs, i.e. `expand14` of these bytes). -/
def rgbRdmShuffleLo : List ℕ := [0, 1, 2, 255, 3, 4, 5, 255]
/-- `shuffle_hi`, `src/neon/rgb_u8_sqrdml.rs:144-145`. -/
def rgbRdmShuffleHi : List ℕ := [6, 7, 8, 255, 9, 10, 11, 255]

/-- `conv_horiz_rgb_4`, `src/neon/rgb_u8_sqrdml.rs:36-62`. -/
def rgbRdmCore4 (ws : List ℤ) (lo hi : List ℕ) (store : List ℤ) : List ℤ :=
  let px := lo ++ hi ++ [0, 0, 0, 0]
  let p := vtap tapR store (tblB px rgbRdmShuffleLo) (tblW ws (rgbRdmPair 0))
  vtap tapR p (tblB px rgbRdmShuffleHi) (tblW ws (rgbRdmPair 1))
/-- The loads of `rgbRdmCore4` (4 weights, 8 + 4 bytes) and the step. -/
def rgbRdm4 := pixels2 3 4 8 4 rgbRdmCore4

/-- `conv_horiz_rgb_2`, `src/neon/rgb_u8_sqrdml.rs:65-85`. -/
def rgbRdmCore2 (ws : List ℤ) (lo hi : List ℕ) (store : List ℤ) : List ℤ :=
  let px := lo ++ hi ++ List.replicate 10 0
  vtap tapR store (tblB px rgbRdmShuffleLo) (tblW ws (rgbRdmPair 0))
/-- The loads of `rgbRdmCore2` (2 weights, 4 + 2 bytes) and the step. -/
def rgbRdm2 := pixels2 3 2 4 2 rgbRdmCore2

/-- `conv_hor_rgb_1`, `src/neon/rgb_u8_sqrdml.rs:88-102`; the weights are `[w, w, w, w, 0, 0, 0, 0]`. -/
def rgbRdmCore1 (ws : List ℤ) (lo hi : List ℕ) (store : List ℤ) : List ℤ :=
  let px := lo ++ hi ++ List.replicate 13 0
  vtap tapR store (tblB px rgbRdmShuffleLo)
    (List.replicate 4 (ws.getD 0 0) ++ List.replicate 4 0)
/-- The loads of `rgbRdmCore1` (1 weights, 2 + 1 bytes) and the step. -/
def rgbRdm1 := pixels2 3 1 2 1 rgbRdmCore1

/-- `convolve_horizontal_rgb_neon_rdm_rows_4_impl` and `convolve_horizontal_rgb_neon_row_rdm_one_impl`,
`src/neon/rgb_u8_sqrdml.rs:133-237,250-324`; `write_accumulator_u8`, `:105-112`. -/
def rgbRdm (src : List ℕ) (offs : List ℕ) (w : List ℤ) (b : Bounds) : Option (List (List ℕ)) := do
  let st := offs.map fun _ => [RDM_ROUNDING, RDM_ROUNDING, RDM_ROUNDING, 0, 0, 0, 0, 0]
  let (jx, st) ← rowsLoop 4 4 b.size offs (rgbRdm4 src w b) 0 st
  let (jx, st) ← rowsLoop 2 2 b.size offs (rgbRdm2 src w b) jx st
  let (_, st) ← rowsLoop 0 1 b.size offs (rgbRdm1 src w b) jx st
  some (st.map fun acc => (List.range 3).map fun c =>
    narrow16 ((vadd16 (acc.take 4) (acc.drop 4)).getD c 0))

/-! ### `src/neon/plane_u8_rdm.rs` -/

/-- `accumulate_32_horiz`, `src/neon/plane_u8_rdm.rs:36-46`. -/
def planeRdmCore32 (ws : List ℤ) (px0 px1 : List ℕ) (store : List ℤ) : List ℤ :=
  let p := vtap tapR store (octet px0 0) (octet ws 0)
  let p := vtap tapR p (octet px0 1) (octet ws 1)
  let p := vtap tapR p (octet px1 0) (octet ws 2)
  vtap tapR p (octet px1 1) (octet ws 3)
/-- The loads of `planeRdmCore32` (32 weights, 16 + 16 bytes) and the step. -/
def planeRdm32 := pixels2 1 32 16 16 planeRdmCore32

/-- `accumulate_16_horiz`, `src/neon/plane_u8_rdm.rs:49-55`. -/
def planeRdmCore16 (ws : List ℤ) (px : List ℕ) (store : List ℤ) : List ℤ :=
  let p := vtap tapR store (octet px 0) (octet ws 0)
  vtap tapR p (octet px 1) (octet ws 1)
/-- The loads of `planeRdmCore16` (16 weights, 16 bytes) and the step. -/
def planeRdm16 := pixels1 1 16 16 planeRdmCore16

/-- `accumulate_8_horiz`, `src/neon/plane_u8_rdm.rs:58-62`. -/
def planeRdmCore8 (ws : List ℤ) (px : List ℕ) (store : List ℤ) : List ℤ :=
  vtap tapR store px ws
/-- The loads of `planeRdmCore8` (8 weights, 8 bytes) and the step. -/
def planeRdm8 := pixels1 1 8 8 planeRdmCore8

/-- `accumulate_4_horiz`, `src/neon/plane_u8_rdm.rs:65-69`, with the weights of `:204`. -/
def planeRdmCore4 (ws : List ℤ) (px : List ℕ) (store : List ℤ) : List ℤ :=
  vtap tapR store (px ++ List.replicate 4 0) (ws ++ List.replicate 4 0)
/-- The loads of `planeRdmCore4` (4 weights, 4 bytes) and the step. -/
def planeRdm4 := pixels1 1 4 4 planeRdmCore4

/-- `accumulate_1_horiz`, `src/neon/plane_u8_rdm.rs:72-76`, with the weights of `:224-227`. -/
def planeRdmCore1 (ws : List ℤ) (px : List ℕ) (store : List ℤ) : List ℤ :=
  vtap tapR store (px ++ List.replicate 7 0) (ws ++ List.replicate 7 0)
/-- The loads of `planeRdmCore1` (1 weights, 1 bytes) and the step. -/
def planeRdm1 := pixels1 1 1 1 planeRdmCore1

/-- `(vaddvq_s16(store).max(0) >> 6).min(255) as u8`, `src/neon/plane_u8_rdm.rs:244-247`. -/
def planeNarrow16 (acc : List ℤ) : ℕ := (min ((max (i16 acc.sum) 0) >>> 6) 255 : ℤ).toNat

/-- `convolve_horizontal_plane_neon_rows_4_u8_impl` and `convolve_horizontal_plane_neon_rdm_row_impl`,
`src/neon/plane_u8_rdm.rs:97-265,278-361`. -/
def planeRdm (src : List ℕ) (offs : List ℕ) (w : List ℤ) (b : Bounds) : Option (List (List ℕ)) := do
  let st := offs.map fun _ => [RDM_ROUNDING, 0, 0, 0, 0, 0, 0, 0]
  let (jx, st) ← rowsLoop 32 32 b.size offs (planeRdm32 src w b) 0 st
  let (jx, st) ← rowsLoop 16 16 b.size offs (planeRdm16 src w b) jx st
  let (jx, st) ← rowsLoop 8 8 b.size offs (planeRdm8 src w b) jx st
  let (jx, st) ← rowsLoop 4 4 b.size offs (planeRdm4 src w b) jx st
  let (_, st) ← rowsLoop 0 1 b.size offs (planeRdm1 src w b) jx st
  some (st.map fun acc => [planeNarrow16 acc])

/-! ### `src/neon/cbcr8_rdm.rs` -/

/-- `weights_distribute_table`, `src/neon/cbcr8_rdm.rs:123` (16-bit lane numbers). -/
def cbcrRdmLo : List ℕ := [0, 0, 1, 1, 2, 2, 3, 3]
/-- `weights_distribute_table1`, `src/neon/cbcr8_rdm.rs:125-126`. -/
def cbcrRdmHi : List ℕ := [4, 4, 5, 5, 6, 6, 7, 7]

/-- `accumulate_8_horiz`, `src/neon/cbcr8_rdm.rs:35-46`. -/
def cbcrRdmCore8 (ws : List ℤ) (px : List ℕ) (store : List ℤ) : List ℤ :=
  let p := vtap tapR store (octet px 0) (tblW ws cbcrRdmLo)
  vtap tapR p (octet px 1) (tblW ws cbcrRdmHi)
/-- The loads of `cbcrRdmCore8` (8 weights, 16 bytes) and the step. -/
def cbcrRdm8 := pixels1 2 8 16 cbcrRdmCore8

/-- `accumulate_4_horiz`, `src/neon/cbcr8_rdm.rs:50-54`. -/
def cbcrRdmCore4 (ws : List ℤ) (px : List ℕ) (store : List ℤ) : List ℤ :=
  vtap tapR store px (tblW ws cbcrRdmLo)
/-- The loads of `cbcrRdmCore4` (4 weights, 8 bytes) and the step. -/
def cbcrRdm4 := pixels1 2 4 8 cbcrRdmCore4

/-- `accumulate_1_horiz`, `src/neon/cbcr8_rdm.rs:58-62`, with the weights of `:202-208`. -/
def cbcrRdmCore1 (ws : List ℤ) (px : List ℕ) (store : List ℤ) : List ℤ :=
  vtap tapR store (px ++ List.replicate 6 0) (tblW ws cbcrRdmLo)
/-- The loads of `cbcrRdmCore1` (1 weights, 2 bytes) and the step. -/
def cbcrRdm1 := pixels1 2 1 2 cbcrRdmCore1

/-- `store_cbcr`, `src/neon/cbcr8_rdm.rs:65-76`: lanes 0 and 1 are written. -/
def cbcrRdmFinish (acc : List ℤ) : List ℕ :=
  let m0 := vadd16 (acc.take 4) (acc.drop 4)
  let m1 := vadd16 m0 (tblW m0 [2, 3, 255, 255])
  (List.range 2).map fun c => narrow16 (m1.getD c 0)

/-- `convolve_horizontal_cbcr_neon_rows_4_u8_impl` and `convolve_horizontal_cbcr_neon_rdm_row_impl`,
`src/neon/cbcr8_rdm.rs:97-231,244-327`. -/
def cbcrRdm (src : List ℕ) (offs : List ℕ) (w : List ℤ) (b : Bounds) : Option (List (List ℕ)) := do
  let st := offs.map fun _ => [RDM_ROUNDING, RDM_ROUNDING, 0, 0, 0, 0, 0, 0]
  let (jx, st) ← rowsLoop 8 8 b.size offs (cbcrRdm8 src w b) 0 st
  let (jx, st) ← rowsLoop 4 4 b.size offs (cbcrRdm4 src w b) jx st
  let (_, st) ← rowsLoop 0 1 b.size offs (cbcrRdm1 src w b) jx st
  some (st.map cbcrRdmFinish)

/-! ### Vertical: `src/neon/vertical_u8.rs`, `src/neon/vertical_u8_rdm.rs`

The accumulator registers of a chunk of `B` samples are one list of `B` lanes; every row multiplies
into all of them. -/

/-- One source row `j` with the weight `w` into the accumulators of a chunk. -/
def neonRow (tap : ℤ → ℕ → ℤ → ℤ) (B : ℕ) (b : Bounds) (src : List ℕ) (stride : ℕ) (px j : ℕ) (w : ℤ)
    (st : List ℤ) : Option (List ℤ) := do
  let row ← loadBytes src (stride * (b.start + j) + px) B
  some (vtapLane tap st row w)

/-- The same with the weight number `j`. -/
def neonStep (tap : ℤ → ℕ → ℤ → ℤ) (B : ℕ) (b : Bounds) (src : List ℕ) (stride : ℕ) (weight : List ℤ)
    (px j : ℕ) (st : List ℤ) : Option (List ℤ) := do
  let w ← weight[j]?
  neonRow tap B b src stride px j w st

/-- A chunk of `B` samples: `src/neon/vertical_u8.rs:134-348` (64), `:353-491` (32), `:496-582` (16),
`:685-763` (1); `src/neon/vertical_u8_rdm.rs:101-233` (64), `:238-338` (32), `:426-507` (8),
`:512-592` (1). The cases 2, 3, 4 take the weights from the lanes of one register, the loop broadcasts
them. -/
def neonChunk (tap : ℤ → ℕ → ℤ → ℤ) (init : ℤ) (fin : ℤ → ℕ) (B : ℕ) (b : Bounds) (src : List ℕ)
    (stride : ℕ) (weight : List ℤ) (px : ℕ) (dst : List ℕ) : Option (List ℕ) := do
  let step := neonStep tap B b src stride weight px
  let st ← unrolled24 b.size step step (List.replicate B init)
  writeAt? dst px (st.map fin)

/-- The chunk of 8 samples of the 32-bit handler, `src/neon/vertical_u8.rs:587-680`. With three rows the
upper four lanes of the last row use lane 3 of `v_weight` (`:630`), and `v_weight` is `[w0, w1, w2, w1]`
(`:611-613`). -/
def neonChunk8 (D : Bool) (b : Bounds) (src : List ℕ) (stride : ℕ) (weight : List ℤ) (px : ℕ)
    (dst : List ℕ) : Option (List ℕ) := do
  let step := neonStep (tapX D) 8 b src stride weight px
  let init := List.replicate 8 (neonRnd D)
  if b.size = 3 then do
    let st ← step 0 init
    let st ← step 1 st
    let ws ← slice? weight 0 3
    let row ← loadBytes src (stride * (b.start + 2) + px) 8
    let vweight := [ws.getD 0 0, ws.getD 1 0, ws.getD 2 0, ws.getD 1 0]
    let store0 := vtapLane (tapX D) (st.take 4) (row.take 4) (vweight.getD 2 0)
    let store1 := vtapLane (tapX D) (st.drop 4) (row.drop 4) (vweight.getD 3 0)
    writeAt? dst px ((store0 ++ store1).map (narrow32 D))
  else do
    let st ← unrolled24 b.size step step init
    writeAt? dst px (st.map (narrow32 D))

/-- The chunk of 16 samples of the `rdm` handler, `src/neon/vertical_u8_rdm.rs:343-421`. With four rows
the last one uses the lane 2 of the weights again (`:402`). -/
def neonRdmChunk16 (b : Bounds) (src : List ℕ) (stride : ℕ) (weight : List ℤ) (px : ℕ)
    (dst : List ℕ) : Option (List ℕ) := do
  let step := neonStep tapR 16 b src stride weight px
  let init := List.replicate 16 RDM_ROUNDING
  if b.size = 4 then do
    let ws ← slice? weight 0 4
    let st ← step 0 init
    let st ← step 1 st
    let st ← step 2 st
    let st ← neonRow tapR 16 b src stride px 3 (ws.getD 2 0) st
    writeAt? dst px (st.map narrow16)
  else do
    let st ← unrolled24 b.size step step init
    writeAt? dst px (st.map narrow16)

/-- `convolve_vertical_neon_row_full`, `src/neon/vertical_u8.rs:118-766`: `chunks_exact_mut(64)`, of the
remainder 32, 16, 8, then single samples. `chunks_exact_mut(B)` is the loop `while cx + B <= len`. -/
def neonColumn (D : Bool) (b : Bounds) (src dst : List ℕ) (stride : ℕ) (weight : List ℤ) :
    Option (List ℕ) := do
  let total := dst.length
  let chunk := fun B => neonChunk (tapX D) (neonRnd D) (narrow32 D) B b src stride weight
  let (cx, d) ← whileBlocks 63 64 total (chunk 64) total 0 dst
  let (cx, d) ← whileBlocks 31 32 total (chunk 32) total cx d
  let (cx, d) ← whileBlocks 15 16 total (chunk 16) total cx d
  let (cx, d) ← whileBlocks 7 8 total (neonChunk8 D b src stride weight) total cx d
  let (_, d) ← whileBlocks 0 1 total (chunk 1) total cx d
  some d

/-- `convolve_vertical_neon_row_upper`, `src/neon/vertical_u8_rdm.rs:84-594`. -/
def neonRdmColumn (b : Bounds) (src dst : List ℕ) (stride : ℕ) (weight : List ℤ) : Option (List ℕ) := do
  let total := dst.length
  let chunk := fun B => neonChunk tapR RDM_ROUNDING narrow16 B b src stride weight
  let (cx, d) ← whileBlocks 63 64 total (chunk 64) total 0 dst
  let (cx, d) ← whileBlocks 31 32 total (chunk 32) total cx d
  let (cx, d) ← whileBlocks 15 16 total (neonRdmChunk16 b src stride weight) total cx d
  let (cx, d) ← whileBlocks 7 8 total (chunk 8) total cx d
  let (_, d) ← whileBlocks 0 1 total (chunk 1) total cx d
  some d

end PicScale
