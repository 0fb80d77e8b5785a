import Verif.Lemmas.X86U16H

/-! The x86 handlers for u16 images of more than 12 bits. -/

namespace PicScale

open Finset Spec

/-! ### float lanes -/

theorem preferFma_of (fma : Bool) (f g : ℕ → ℚ) (w : ℚ) :
    preferFma fma ((List.range 4).map f) ((List.range 4).map g) (set1ps w) =
      (List.range 4).map fun i => mlaf F32.rnd fma (f i) (g i) w := by
  unfold preferFma mlaf
  rw [set1ps_of]
  cases fma
  · rw [if_neg (by simp), mulps_of]
    unfold addps
    rw [zipWith_map_range]
    apply List.map_congr_left
    intro i _
    rw [if_neg (by simp)]
    unfold F32.add F32.mul
    rw [add_comm]
  · rw [if_pos rfl]
    unfold fmaddps
    rw [zipWith_map_range, zipWith_map_range]
    apply List.map_congr_left
    intro i _
    rw [if_pos rfl, add_comm]

theorem cvtLo_of {v : ℕ → ℕ} (hv : ∀ i, v i < 65536) : cvtLo (lanes8 fun i => (v i : ℤ)) =
    (List.range 4).map fun i => ((v i : ℕ) : ℚ) := by
  obtain ⟨h0, h1⟩ := u16s_bounds v hv
  unfold cvtLo
  rw [unpacklo16_zero h0 h1, cvtepi32ps_of hv]

theorem cvtHi_of {v : ℕ → ℕ} (hv : ∀ i, v i < 65536) : cvtHi (lanes8 fun i => (v i : ℤ)) =
    (List.range 4).map fun i => ((v (4 + i) : ℕ) : ℚ) := by
  obtain ⟨h0, h1⟩ := u16s_bounds v hv
  unfold cvtHi
  rw [unpackhi16_zero h0 h1, cvtepi32ps_of (k := fun i => v (4 + i)) fun i => hv _]

/-- Sum of the taps `L` (weight, pixel), in that order. -/
def fpFold (fma : Bool) (w : List ℚ) (s : ℕ → ℕ) (L : List (ℕ × ℕ)) : ℚ :=
  L.foldl (fun a t => mlaf F32.rnd fma a ((s t.2 % 65536 : ℕ) : ℚ) (w.getD t.1 0)) 0

theorem fpFold_snoc (fma : Bool) (w : List ℚ) (s : ℕ → ℕ) (L : List (ℕ × ℕ)) (t : ℕ × ℕ) :
    fpFold fma w s (L ++ [t]) = mlaf F32.rnd fma (fpFold fma w s L) ((s t.2 % 65536 : ℕ) : ℚ) (w.getD t.1 0) := by
  unfold fpFold
  rw [List.foldl_append]
  rfl

/-- `cvtps_epi32`, `min_epi32` and `packus_epi32` on one accumulator. -/
def fpVal (d : ℕ) (a : ℚ) : ℕ := u16 (max 0 (min (min (cvt1 a) (i32 (2 ^ d - 1))) 65535))

theorem min32_of (f g : ℕ → ℤ) : min32 (lanes4 f) (lanes4 g) = lanes4 fun i => min (i32 (f i)) (i32 (g i)) := by
  unfold min32 lanes4
  rw [lanes32_ofLanes32, lanes32_ofLanes32, List.map_map, List.map_map, zipWith_map_range]
  rfl

theorem i32_min (a b : ℤ) : i32 (min (i32 a) (i32 b)) = min (i32 a) (i32 b) := by
  rcases min_choice (i32 a) (i32 b) with h | h <;> rw [h, i32_i32]

theorem fpNarrow_of (d : ℕ) (f g : ℕ → ℚ) :
    fpNarrow d ((List.range 4).map f, (List.range 4).map g) =
      (List.range 8).map fun i => fpVal d (if i < 4 then f i else g (i - 4)) := by
  unfold fpNarrow
  dsimp only
  rw [cvtpsepi32_of, cvtpsepi32_of, set1epi32_of, min32_of, min32_of, packus32_of, toU16_of]
  apply List.map_congr_left
  intro i _
  unfold fpVal
  congr 3
  split_ifs <;> rw [i32_min, i32_cvt1]

theorem fpStore4_of (d : ℕ) (f : ℕ → ℚ) :
    (toU16 (packus32 (min32 (cvtpsepi32 ((List.range 4).map f)) (set1epi32 (2 ^ d - 1)))
      (min32 (cvtpsepi32 ((List.range 4).map f)) (set1epi32 (2 ^ d - 1))))).take 4 =
      (List.range 4).map fun i => fpVal d (f i) := by
  have := fpNarrow_of d f f
  unfold fpNarrow at this
  dsimp only at this
  rw [this, take4_range8]
  apply List.map_congr_left
  intro i hi
  rw [if_pos (by simpa using hi)]

/-! ### columns -/

variable {src : List ℕ} {stride : ℕ} {w : List ℚ} {b : Bounds} {total : ℕ}

/-- Accumulator of `n` rows. -/
def fpAcc (fma : Bool) (w : List ℚ) (s : ℕ → ℕ) (n : ℕ) : ℚ := fpFold fma w s (taps1 0 n)

theorem taps1_succ (n : ℕ) : taps1 0 (n + 1) = taps1 0 n ++ [(n, n)] := by
  unfold taps1
  rw [Nat.sub_zero, Nat.sub_zero, List.range_succ, List.map_append]
  simp

theorem fpAcc_succ (fma : Bool) (w : List ℚ) (s : ℕ → ℕ) (n : ℕ) :
    fpAcc fma w s (n + 1) = mlaf F32.rnd fma (fpAcc fma w s n) ((s n % 65536 : ℕ) : ℚ) (w.getD n 0) := by
  unfold fpAcc
  rw [taps1_succ, fpFold_snoc]

theorem fpAcc_zero (fma : Bool) (w : List ℚ) (s : ℕ → ℕ) : fpAcc fma w s 0 = 0 := rfl

theorem VPre.getF (h : VPre src stride w b total) {k : ℕ} (hk : k < b.size) : w[k]? = some (w.getD k 0) :=
  getElem?_eq_some_getD 0 (by have := h.weights; omega)

/-- State of a chunk of `8 R` samples after `n` rows. -/
def fpState (fma : Bool) (src : List ℕ) (stride : ℕ) (b : Bounds) (w : List ℚ) (R sx n : ℕ) : List (RegF × RegF) :=
  (List.range R).map fun r =>
    ((List.range 4).map fun i => fpAcc fma w (colSamples src stride b (sx + 8 * r + i)) n,
     (List.range 4).map fun i => fpAcc fma w (colSamples src stride b (sx + 8 * r + (4 + i))) n)

theorem fpState_zero (fma : Bool) (R sx : ℕ) : List.replicate R (set1ps 0, set1ps 0) =
    fpState fma src stride b w R sx 0 := by
  unfold fpState
  simp only [fpAcc_zero, set1ps_of]
  have e : ∀ x : RegF × RegF, List.replicate R x = (List.range R).map fun _ => x := fun x => by
    rw [List.map_const', List.length_range]
  exact e _

theorem fpDot_of (fma : Bool) (f g : ℕ → ℚ) {v : ℕ → ℕ} (hv : ∀ i, v i < 65536) (w : ℚ) :
    fpDot fma ((List.range 4).map f, (List.range 4).map g) (lanes8 fun i => (v i : ℤ)) (set1ps w) =
      ((List.range 4).map fun i => mlaf F32.rnd fma (f i) ((v i : ℕ) : ℚ) w,
       (List.range 4).map fun i => mlaf F32.rnd fma (g i) ((v (4 + i) : ℕ) : ℚ) w) := by
  unfold fpDot
  dsimp only
  rw [cvtLo_of hv, cvtHi_of hv, preferFma_of, preferFma_of]

theorem fpStep_inv (fma : Bool) (h : VPre src stride w b total) {R sx j : ℕ} (hx : sx + 8 * R ≤ total) (hj : j < b.size) :
    fpStep fma R b src stride w sx j (fpState fma src stride b w R sx j) =
      some (fpState fma src stride b w R sx (j + 1)) := by
  have r0 := h.row (k := j) hj
  unfold fpStep
  rw [h.getF hj]
  simp only [Option.bind_eq_bind, Option.bind_some]
  unfold fpState
  rw [zip_range_map]
  refine mapM_map_some _ _ _ _ ?_
  intro r hr
  have hr : r < R := by simpa using hr
  dsimp only
  rw [load128w_eq (by omega)]
  simp only [Option.bind_some]
  rw [fpDot_of _ _ _ (fun i => mod16_lt _)]
  simp only [fpAcc_succ, colSamples, Nat.add_assoc]

theorem fpBlock_ok (fma : Bool) (h : VPre src stride w b total) (R d : ℕ) :
    BlockVal (8 * R) total (fpBlock fma R d b src stride w)
      (fun p => fpVal d (fpAcc fma w (colSamples src stride b p) b.size)) := by
  intro sx hx
  unfold fpBlock
  rw [fpState_zero (src := src) (stride := stride) (b := b) (w := w) fma R sx, Nat.min_eq_left h.weights,
    forRange_spec (inv := fpState fma src stride b w R sx) (Nat.zero_le _) (fun j _ hj => fpStep_inv fma h hx hj)]
  simp only [Option.bind_eq_bind, Option.bind_some]
  congr 1
  unfold fpState
  rw [List.flatMap_map, ← flatMap_range8]
  apply List.flatMap_congr
  intro r _
  rw [fpNarrow_of]
  apply List.map_congr_left
  intro i _
  split_ifs with hi
  · rw [Nat.add_assoc]
  · rw [show sx + 8 * r + (4 + (i - 4)) = sx + (8 * r + i) by omega]

theorem cvtLo_load64w (v : ℕ → ℕ) : cvtLo (lanes8 fun c => ((if c < 4 then v c % 65536 else 0 : ℕ) : ℤ)) =
    (List.range 4).map fun i => ((v i % 65536 : ℕ) : ℚ) := by
  unfold cvtLo
  rw [unpack_load64w, cvtepi32ps_of (k := fun i => v i % 65536) (fun i => mod16_lt _)]

theorem fpStep4_inv (fma : Bool) (h : VPre src stride w b total) {sx j : ℕ} (hx : sx + 4 ≤ total) (hj : j < b.size) :
    fpStep4 fma b src stride w sx j ((List.range 4).map fun i => fpAcc fma w (colSamples src stride b (sx + i)) j) =
      some ((List.range 4).map fun i => fpAcc fma w (colSamples src stride b (sx + i)) (j + 1)) := by
  have r0 := h.row (k := j) hj
  unfold fpStep4
  rw [h.getF hj, load64w_eq (by omega)]
  simp only [Option.bind_eq_bind, Option.bind_some]
  rw [cvtLo_load64w (fun c => src.getD (stride * (b.start + j) + sx + c) 0), preferFma_of]
  simp only [fpAcc_succ, colSamples, Nat.add_assoc]

theorem size4F (h : VPre src stride w b total) : (if b.size ≤ 4 then b.size else min b.size w.length) = b.size := by
  have := h.weights
  split_ifs <;> omega

theorem fpBlock4_ok (fma : Bool) (h : VPre src stride w b total) (d : ℕ) :
    BlockVal 4 total (fpBlock4 fma d b src stride w)
      (fun p => fpVal d (fpAcc fma w (colSamples src stride b p) b.size)) := by
  intro sx hx
  have key := unrolled_eq (size := b.size) (step := fpStep4 fma b src stride w sx) (step' := fpStep4 fma b src stride w sx)
    (inv := fun n => (List.range 4).map fun i => fpAcc fma w (colSamples src stride b (sx + i)) n)
    (fun j hj => fpStep4_inv fma h hx hj) (fun j hj => fpStep4_inv fma h hx hj)
  simp only [fpAcc_zero] at key
  unfold fpBlock4
  dsimp only
  rw [size4F h, set1ps_of, key]
  simp only [Option.bind_eq_bind, Option.bind_some]
  rw [fpStore4_of]

/-- Accumulator of the scalar tail. -/
def fpTailAcc (fused : Bool) (w : List ℚ) (s : ℕ → ℕ) (n : ℕ) : ℚ :=
  (List.range n).foldl (fun a k => mlaf F32.rnd fused a ((s k : ℕ) : ℚ) (w.getD k 0)) 0

theorem fpTailAcc_succ (fused : Bool) (w : List ℚ) (s : ℕ → ℕ) (n : ℕ) :
    fpTailAcc fused w s (n + 1) = mlaf F32.rnd fused (fpTailAcc fused w s n) ((s n : ℕ) : ℚ) (w.getD n 0) := by
  unfold fpTailAcc
  rw [List.range_succ, List.foldl_append]
  rfl

theorem fpTail_ok (fused : Bool) (h : VPre src stride w b total) (d : ℕ) :
    BlockVal 1 total (fpTail fused d b src stride w)
      (fun p => toMixedU16 d (fpTailAcc fused w (colSamples src stride b p) b.size)) := by
  intro sx hx
  have hs : ∀ j, j < b.size → fpStep1 fused b src stride w sx j (fpTailAcc fused w (colSamples src stride b sx) j) =
      some (fpTailAcc fused w (colSamples src stride b sx) (j + 1)) := by
    intro j hj
    have r0 := h.row (k := j) hj
    unfold fpStep1
    rw [h.getF hj, getElem?_eq_some_getD (d := 0) (show stride * (b.start + j) + sx < src.length by omega)]
    simp only [Option.bind_eq_bind, Option.bind_some]
    rw [fpTailAcc_succ]
    rfl
  have key := unrolled_eq (size := b.size) (step := fpStep1 fused b src stride w sx) (step' := fpStep1 fused b src stride w sx)
    (inv := fun n => fpTailAcc fused w (colSamples src stride b sx) n) hs hs
  unfold fpTail
  dsimp only
  have z : fpTailAcc fused w (colSamples src stride b sx) 0 = 0 := rfl
  rw [z] at key
  rw [size4F h, key]
  rfl

/-- The SSE4.1 column handler above 12 bits. -/
theorem sseColumnFp_ok (fma fused : Bool) (d : ℕ) {dst : List ℕ} (h : VPre src stride w b dst.length) :
    ∃ r, sseColumnFp fma fused d b src dst stride w = some r ∧ r.length = dst.length ∧
      ∀ p, p < dst.length → r[p]? = some (columnVal 16 dst.length
        (fun p => fpVal d (fpAcc fma w (colSamples src stride b p) b.size))
        (fun p => toMixedU16 d (fpTailAcc fused w (colSamples src stride b p) b.size)) p) :=
  sseChain (fpBlock_ok fma h 2 d) (fpBlock_ok fma h 1 d) (fpBlock4_ok fma h d) (fpTail_ok fused h d) dst rfl

/-! ### rows -/

variable {offs : List ℕ}

/-- State of one row: the four channels. -/
def FpInv (fma : Bool) (src : List ℕ) (w : List ℚ) (b : Bounds) (o : ℕ) (L : List (ℕ × ℕ)) (s : RegF) : Prop :=
  s = (List.range 4).map fun c => fpFold fma w (rowSamples src o b c) L

theorem HPre.getF (h : HPre 4 src offs w b) {k : ℕ} (hk : k < b.size) : w[k]? = some (w.getD k 0) :=
  getElem?_eq_some_getD 0 (by have := h.weights; omega)

theorem cvtLo_pair (o n : ℕ) : cvtLo (lanes8 fun i => (pair16 src o b n i : ℤ)) =
    (List.range 4).map fun c => ((rowSamples src o b c n % 65536 : ℕ) : ℚ) := by
  unfold cvtLo
  rw [unpacklo_pair, cvtepi32ps_of (k := fun c => rowSamples src o b c n % 65536) (fun i => mod16_lt _)]

theorem cvtHi_pair (o n : ℕ) : cvtHi (lanes8 fun i => (pair16 src o b n i : ℤ)) =
    (List.range 4).map fun c => ((rowSamples src o b c (n + 1) % 65536 : ℕ) : ℚ) := by
  unfold cvtHi
  rw [unpackhi_pair, cvtepi32ps_of (k := fun c => rowSamples src o b c (n + 1) % 65536) (fun i => mod16_lt _)]

/-- One tap. -/
theorem fpTap (fma : Bool) (o k m : ℕ) (L : List (ℕ × ℕ)) :
    preferFma fma ((List.range 4).map fun c => fpFold fma w (rowSamples src o b c) L)
      ((List.range 4).map fun c => ((rowSamples src o b c m % 65536 : ℕ) : ℚ)) (set1ps (w.getD k 0)) =
    (List.range 4).map fun c => fpFold fma w (rowSamples src o b c) (L ++ [(k, m)]) := by
  rw [preferFma_of]
  simp only [fpFold_snoc]

theorem fpPx1_inv (fma : Bool) (h : HPre 4 src offs w b) {o : ℕ} (ho : o ∈ offs) {jx : ℕ} (hj : jx < b.size)
    (L : List (ℕ × ℕ)) (s : RegF) (hs : FpInv fma src w b o L s) :
    ∃ s', rgbaFpPx1 fma src w b jx o s = some s' ∧ FpInv fma src w b o (L ++ [(jx, jx)]) s' := by
  have hr := h.room ho (k := jx + 1) (by omega)
  subst hs
  refine ⟨_, ?_, rfl⟩
  unfold rgbaFpPx1
  rw [h.getF hj, load_one (by omega)]
  simp only [Option.bind_eq_bind, Option.bind_some]
  rw [cvtLo_load64w (fun c => rowSamples src o b c jx), fpTap]

theorem load_pair0 {o jx : ℕ} (n : ℕ) (hn : jx + 2 ≤ n) (h : o + (b.start + n) * 4 ≤ src.length) :
    load128w src (o + (b.start + jx) * 4) = some (lanes8 fun i => (pair16 src o b jx i : ℤ)) :=
  load_pairAt 0 rfl rfl n hn h

theorem fpPx2_inv (fma : Bool) (h : HPre 4 src offs w b) {o : ℕ} (ho : o ∈ offs) {jx : ℕ} (hj : jx + 2 ≤ b.size)
    (L : List (ℕ × ℕ)) (s : RegF) (hs : FpInv fma src w b o L s) :
    ∃ s', rgbaFpPx2 fma src w b jx o s = some s' ∧ FpInv fma src w b o (L ++ taps2 jx) s' := by
  have hr := h.room ho (k := jx + 2) (by omega)
  subst hs
  refine ⟨_, ?_, rfl⟩
  unfold rgbaFpPx2
  rw [h.getF (show jx < b.size by omega), h.getF (show jx + 1 < b.size by omega), load_pair0 (jx + 2) le_rfl hr]
  simp only [Option.bind_eq_bind, Option.bind_some]
  rw [cvtLo_pair, fpTap, fpTap, List.append_assoc]
  rfl

theorem fpPx4_inv (fma : Bool) (h : HPre 4 src offs w b) {o : ℕ} (ho : o ∈ offs) {jx : ℕ} (hj : jx + 4 ≤ b.size)
    (L : List (ℕ × ℕ)) (s : RegF) (hs : FpInv fma src w b o L s) :
    ∃ s', rgbaFpPx4 fma src w b jx o s = some s' ∧ FpInv fma src w b o (L ++ taps4 jx) s' := by
  have hr := h.room ho (k := jx + 4) (by omega)
  have l1 : load128w src (o + (b.start + jx) * 4 + 8) = some (lanes8 fun i => (pair16 src o b (jx + 2) i : ℤ)) :=
    load_pairAt 2 (by norm_num) rfl _ (by omega) hr
  subst hs
  refine ⟨_, ?_, rfl⟩
  unfold rgbaFpPx4
  rw [h.getF (show jx < b.size by omega), h.getF (show jx + 1 < b.size by omega), h.getF (show jx + 2 < b.size by omega),
    h.getF (show jx + 3 < b.size by omega), load_pair0 (jx + 4) (by omega) hr, l1]
  simp only [Option.bind_eq_bind, Option.bind_some]
  rw [cvtLo_pair, cvtHi_pair, cvtHi_pair, fpTap, fpTap, fpTap, fpTap]
  simp only [List.append_assoc]
  rfl

theorem fpFour_of (fma : Bool) (o n : ℕ) (L : List (ℕ × ℕ)) :
    rgbaFpFour fma (lanes8 fun i => (pair16 src o b n i : ℤ)) (lanes8 fun i => (pair16 src o b (n + 2) i : ℤ))
      (w.getD n 0) (w.getD (n + 1) 0) (w.getD (n + 2) 0) (w.getD (n + 3) 0)
      ((List.range 4).map fun c => fpFold fma w (rowSamples src o b c) L) =
    (List.range 4).map fun c => fpFold fma w (rowSamples src o b c)
      (L ++ [(n + 3, n + 3), (n + 2, n + 2), (n + 1, n + 1), (n, n)]) := by
  unfold rgbaFpFour
  dsimp only
  rw [cvtLo_pair, cvtHi_pair, cvtLo_pair, cvtHi_pair, fpTap, fpTap, fpTap, fpTap]
  simp only [List.append_assoc]
  rfl

theorem fpPx8_inv (fma : Bool) (h : HPre 4 src offs w b) {o : ℕ} (ho : o ∈ offs) {jx : ℕ} (hj : jx + 8 ≤ b.size)
    (L : List (ℕ × ℕ)) (s : RegF) (hs : FpInv fma src w b o L s) :
    ∃ s', rgbaFpPx8 fma src w b jx o s = some s' ∧ FpInv fma src w b o (L ++ taps8 jx) s' := by
  have hr := h.room ho (k := jx + 8) (by omega)
  have l1 : load128w src (o + (b.start + jx) * 4 + 8) = some (lanes8 fun i => (pair16 src o b (jx + 2) i : ℤ)) :=
    load_pairAt 2 (by norm_num) rfl _ (by omega) hr
  have l2 : load128w src (o + (b.start + jx) * 4 + 16) = some (lanes8 fun i => (pair16 src o b (jx + 4) i : ℤ)) :=
    load_pairAt 4 (by norm_num) rfl _ (by omega) hr
  have l3 : load128w src (o + (b.start + jx) * 4 + 24) = some (lanes8 fun i => (pair16 src o b (jx + 6) i : ℤ)) :=
    load_pairAt 6 (by norm_num) rfl _ (by omega) hr
  have e : ∀ L, rgbaFpFour fma (lanes8 fun i => (pair16 src o b (jx + 4) i : ℤ))
      (lanes8 fun i => (pair16 src o b (jx + 6) i : ℤ)) (w.getD (jx + 4) 0) (w.getD (jx + 5) 0) (w.getD (jx + 6) 0)
      (w.getD (jx + 7) 0) ((List.range 4).map fun c => fpFold fma w (rowSamples src o b c) L) = _ :=
    fpFour_of (src := src) (w := w) (b := b) fma o (jx + 4)
  subst hs
  refine ⟨_, ?_, rfl⟩
  unfold rgbaFpPx8
  rw [h.getF (show jx < b.size by omega), h.getF (show jx + 1 < b.size by omega), h.getF (show jx + 2 < b.size by omega),
    h.getF (show jx + 3 < b.size by omega), h.getF (show jx + 4 < b.size by omega), h.getF (show jx + 5 < b.size by omega),
    h.getF (show jx + 6 < b.size by omega), h.getF (show jx + 7 < b.size by omega),
    load_pair0 (jx + 8) (by omega) hr, l1, l2, l3]
  simp only [Option.bind_eq_bind, Option.bind_some]
  rw [fpFour_of, e]
  simp only [List.append_assoc]
  rfl

/-- The value of a pixel of the RGBA row handlers above 12 bits. -/
def fpH (fma : Bool) (d : ℕ) (w : List ℚ) (b : Bounds) (f : ℕ → ℕ) (c : ℕ) : ℕ :=
  fpVal d (max (fpFold fma w (fun k => f ((b.start + k) * 4 + c)) (fpTaps b.size)) 0)

theorem fpHStore_of (fma : Bool) (d o : ℕ) (L : List (ℕ × ℕ)) (s : RegF) (hs : FpInv fma src w b o L s) :
    rgbaFpStore d s = (List.range 4).map fun c => fpVal d (max (fpFold fma w (rowSamples src o b c) L) 0) := by
  subst hs
  unfold rgbaFpStore maxps0
  dsimp only
  rw [List.map_map]
  exact fpStore4_of d fun c => max (fpFold fma w (rowSamples src o b c) L) 0

theorem flatMap_taps8 (n : ℕ) : (List.range (n + 1)).flatMap (fun i => taps8 (i * 8)) =
    (List.range n).flatMap (fun i => taps8 (i * 8)) ++ taps8 (n * 8) := by
  rw [List.range_succ, List.flatMap_append]
  simp

theorem taps1_snoc {j n : ℕ} (h : j ≤ n) : taps1 j (n + 1) = taps1 j n ++ [(n, n)] := by
  unfold taps1
  rw [show n + 1 - j = n - j + 1 by omega, List.range_succ, List.map_append]
  simp [show j + (n - j) = n by omega]

theorem rgbaSseFp_ok (fma : Bool) (d : ℕ) (h : HPre 4 src offs w b) : rgbaSseFp fma d src offs w b =
    some (offs.map fun o => (List.range 4).map fun c => fpH fma d w b (fun i => src.getD (o + i) 0) c) := by
  have hsz := h.size
  unfold rgbaSseFp
  obtain ⟨n8, s8, a1, a2, a3, a4, a5⟩ := rowsLoop_inv (P := fun o n s =>
      ∃ m, n = m * 8 ∧ FpInv fma src w b o ((List.range m).flatMap fun i => taps8 (i * 8)) s) (margin := 8) (step := 8)
    (size := b.size) (jx := 0) (offs := offs) (f := rgbaFpPx8 fma src w b) (by norm_num) (by norm_num)
    (fun m hm o ho s ⟨m', e, hs⟩ => by
      obtain ⟨s', r1, r2⟩ := fpPx8_inv fma h ho (jx := 0 + m * 8) (by omega) _ s hs
      refine ⟨s', r1, m' + 1, by omega, ?_⟩
      rw [flatMap_taps8, ← e]
      exact r2) (by omega)
    (forall₂_init offs (set1ps 0) fun o _ => ⟨0, rfl, by unfold FpInv; rfl⟩)
  have e8 : n8 = (b.size - 1) / 8 := by omega
  obtain ⟨n4, s4, b1, b2, b3, b4, b5⟩ := rowsLoop_inv (P := fun o n s =>
      FpInv fma src w b o ((List.range n8).flatMap (fun i => taps8 (i * 8)) ++ (if n8 * 8 < n then taps4 (n8 * 8) else [])) s)
      (margin := 4) (step := 4) (jx := 0 + n8 * 8) (size := b.size) (offs := offs) (st := s8)
    (f := rgbaFpPx4 fma src w b) (by norm_num) (by norm_num)
    (fun m hm o ho s hs => by
      have m0 : m = 0 := by omega
      subst m0
      rw [if_neg (by omega)] at hs
      obtain ⟨s', r1, r2⟩ := fpPx4_inv fma h ho (jx := 0 + n8 * 8 + 0 * 4) (by omega) _ s hs
      refine ⟨s', r1, ?_⟩
      rw [if_pos (by omega)]
      rw [List.append_nil, show 0 + n8 * 8 + 0 * 4 = n8 * 8 by omega] at r2
      exact r2) a3
    (a2.imp fun o s ⟨m, e, hs⟩ => by
      have : m = n8 := by omega
      subst this
      rw [if_neg (by omega), List.append_nil]
      exact hs)
  have e4 : n4 = if 4 < b.size - n8 * 8 then 1 else 0 := by split_ifs <;> omega
  obtain ⟨n2, s2, c1, c2, c3, c4, c5⟩ := rowsLoop_inv (P := fun o n s =>
      FpInv fma src w b o ((List.range n8).flatMap (fun i => taps8 (i * 8)) ++
        (if n8 * 8 < 0 + n8 * 8 + n4 * 4 then taps4 (n8 * 8) else []) ++
        (if 0 + n8 * 8 + n4 * 4 < n then taps2 (0 + n8 * 8 + n4 * 4) else [])) s)
      (margin := 2) (step := 2) (jx := 0 + n8 * 8 + n4 * 4) (size := b.size) (offs := offs) (st := s4)
    (f := rgbaFpPx2 fma src w b) (by norm_num) (by norm_num)
    (fun m hm o ho s hs => by
      have m0 : m = 0 := by omega
      subst m0
      rw [if_neg (c := 0 + n8 * 8 + n4 * 4 < 0 + n8 * 8 + n4 * 4 + 0 * 2) (by omega)] at hs
      obtain ⟨s', r1, r2⟩ := fpPx2_inv fma h ho (jx := 0 + n8 * 8 + n4 * 4 + 0 * 2) (by omega) _ s hs
      refine ⟨s', r1, ?_⟩
      rw [if_pos (c := 0 + n8 * 8 + n4 * 4 < 0 + n8 * 8 + n4 * 4 + 0 * 2 + 2) (by omega)]
      rw [List.append_nil, Nat.zero_mul, Nat.add_zero (0 + n8 * 8 + n4 * 4)] at r2
      exact r2) b3
    (b2.imp fun o s hs => by
      rw [if_neg (c := 0 + n8 * 8 + n4 * 4 < 0 + n8 * 8 + n4 * 4) (by omega), List.append_nil]
      exact hs)
  obtain ⟨n1, s1, d1, d2, d3, d4, _⟩ := rowsLoop_inv (P := fun o n s =>
      0 + n8 * 8 + n4 * 4 + n2 * 2 ≤ n ∧ FpInv fma src w b o ((List.range n8).flatMap (fun i => taps8 (i * 8)) ++
        (if n8 * 8 < 0 + n8 * 8 + n4 * 4 then taps4 (n8 * 8) else []) ++
        (if 0 + n8 * 8 + n4 * 4 < 0 + n8 * 8 + n4 * 4 + n2 * 2 then taps2 (0 + n8 * 8 + n4 * 4) else []) ++
        taps1 (0 + n8 * 8 + n4 * 4 + n2 * 2) n) s)
      (margin := 0) (step := 1) (jx := 0 + n8 * 8 + n4 * 4 + n2 * 2) (size := b.size) (offs := offs) (st := s2)
    (f := rgbaFpPx1 fma src w b) (by norm_num) (by norm_num)
    (fun m hm o ho s ⟨hle, hs⟩ => by
      obtain ⟨s', r1, r2⟩ := fpPx1_inv fma h ho (jx := 0 + n8 * 8 + n4 * 4 + n2 * 2 + m * 1) (by omega) _ s hs
      refine ⟨s', r1, by omega, ?_⟩
      rw [taps1_snoc hle, ← List.append_assoc]
      exact r2) c3
    (c2.imp fun o s hs => ⟨le_rfl, by
      have : taps1 (0 + n8 * 8 + n4 * 4 + n2 * 2) (0 + n8 * 8 + n4 * 4 + n2 * 2) = [] := by
        unfold taps1; rw [Nat.sub_self]; rfl
      rw [this, List.append_nil]
      exact hs⟩)
  simp only [Option.bind_eq_bind]
  rw [a1]
  simp only [Option.bind_some]
  rw [b1]
  simp only [Option.bind_some]
  rw [c1]
  simp only [Option.bind_some]
  rw [d1]
  simp only [Option.bind_some]
  congr 1
  have q4 : (if n8 * 8 < 0 + n8 * 8 + n4 * 4 then taps4 (n8 * 8) else []) =
      if 4 < b.size - n8 * 8 then taps4 (n8 * 8) else [] := by
    by_cases hq : 4 < b.size - n8 * 8
    · rw [if_pos hq] at e4 ⊢
      rw [if_pos (by omega)]
    · rw [if_neg hq] at e4 ⊢
      rw [if_neg (by omega)]
  have j4 : (0 + n8 * 8 + n4 * 4) = if 4 < b.size - n8 * 8 then n8 * 8 + 4 else n8 * 8 := by
    split_ifs at e4 ⊢ <;> omega
  have e2 : n2 = if 2 < b.size - (0 + n8 * 8 + n4 * 4) then 1 else 0 := by split_ifs <;> omega
  have q2 : (if 0 + n8 * 8 + n4 * 4 < 0 + n8 * 8 + n4 * 4 + n2 * 2 then taps2 (0 + n8 * 8 + n4 * 4) else []) =
      if 2 < b.size - (0 + n8 * 8 + n4 * 4) then taps2 (0 + n8 * 8 + n4 * 4) else [] := by
    by_cases hq : 2 < b.size - (0 + n8 * 8 + n4 * 4)
    · rw [if_pos hq] at e2 ⊢
      rw [if_pos (by omega)]
    · rw [if_neg hq] at e2 ⊢
      rw [if_neg (by omega)]
  have j2 : (0 + n8 * 8 + n4 * 4 + n2 * 2) =
      if 2 < b.size - (0 + n8 * 8 + n4 * 4) then 0 + n8 * 8 + n4 * 4 + 2 else 0 + n8 * 8 + n4 * 4 := by
    split_ifs at e2 ⊢ <;> omega
  have eT : (List.range n8).flatMap (fun i => taps8 (i * 8)) ++
        (if n8 * 8 < 0 + n8 * 8 + n4 * 4 then taps4 (n8 * 8) else []) ++
        (if 0 + n8 * 8 + n4 * 4 < 0 + n8 * 8 + n4 * 4 + n2 * 2 then taps2 (0 + n8 * 8 + n4 * 4) else []) ++
        taps1 (0 + n8 * 8 + n4 * 4 + n2 * 2) b.size = fpTaps b.size := by
    rw [q4, q2, j2, j4]
    unfold fpTaps
    dsimp only
    rw [← e8]
  refine forall₂_eq d2 fun o _ s hs => ?_
  obtain ⟨_, hs⟩ := hs
  rw [show 0 + n8 * 8 + n4 * 4 + n2 * 2 + n1 * 1 = b.size by omega, eT] at hs
  rw [fpHStore_of fma d o _ s hs]
  simp only [rowSamples_shift]
  rfl

end PicScale
