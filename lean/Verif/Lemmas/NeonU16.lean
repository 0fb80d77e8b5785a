import Verif.Model.NeonU16
import Verif.Lemmas.NeonValues
import Verif.Lemmas.NeonVertical
import Verif.Lemmas.X86U16Value

/-!
The NEON handlers for u16 images as pure functions of the samples of the window: in bounds, and the order in
which the taps are added.
-/

namespace PicScale

open Finset Spec

/-! ### taps in a given order -/

/-- Accumulator after the taps of `L`, in that order: weights `w`, samples `s`. -/
def tapsL {A W : Type} [Zero W] (mac : A → ℕ → W → A) (init : A) (w : List W) (s : ℕ → ℕ) (L : List ℕ) : A :=
  L.foldl (fun a k => mac a (s k) (w.getD k 0)) init

theorem tapsL_snoc {A W : Type} [Zero W] (mac : A → ℕ → W → A) (init : A) (w : List W) (s : ℕ → ℕ) (L : List ℕ) (k : ℕ) :
    tapsL mac init w s (L ++ [k]) = mac (tapsL mac init w s L) (s k) (w.getD k 0) := by
  unfold tapsL; rw [List.foldl_append]; rfl

theorem tapsL_congr {A W : Type} [Zero W] {mac : A → ℕ → W → A} {init : A} {w w' : List W} {s s' : ℕ → ℕ} {L : List ℕ}
    (h : ∀ k ∈ L, w.getD k 0 = w'.getD k 0 ∧ s k = s' k) : tapsL mac init w s L = tapsL mac init w' s' L := by
  induction L using List.reverseRecOn with
  | nil => rfl
  | append_singleton L t ih =>
    rw [tapsL_snoc, tapsL_snoc, ih (fun u hu => h u (List.mem_append_left _ hu)),
      (h t (by simp)).1, (h t (by simp)).2]

/-! ### column handlers -/

section
variable {A W : Type} [Zero W] {mac : A → ℕ → W → A} {init : A} {fin : A → ℕ} {src : List ℕ} {stride : ℕ} {w : List W}
  {b : Bounds} {total : ℕ}

theorem VPre.getW (h : VPre src stride w b total) {k : ℕ} (hk : k < b.size) : w[k]? = some (w.getD k 0) :=
  getElem?_eq_some_getD 0 (by have := h.weights; omega)

theorem laneStep_inv (h : VPre src stride w b total) {B sx j : ℕ} (hx : sx + B ≤ total) (hj : j < b.size) :
    laneStep mac B b src stride w sx j
        ((List.range B).map fun c => tapsL mac init w (colSamples src stride b (sx + c)) (List.range j)) =
      some ((List.range B).map fun c => tapsL mac init w (colSamples src stride b (sx + c)) (List.range (j + 1))) := by
  have r0 := h.row (k := j) hj
  unfold laneStep
  rw [h.getW hj, slice?_eq_some (by omega) (by omega)]
  simp only [Option.bind_eq_bind, Option.bind_some]
  rw [Nat.add_sub_cancel_left, slice_eq_map_range 0 (by omega), zipWith_map_range]
  simp only [List.range_succ, tapsL_snoc, colSamples, Nat.add_assoc]

theorem sizeW (h : VPre src stride w b total) : (if b.size ≤ 4 then b.size else min b.size w.length) = b.size := by
  have := h.weights
  split_ifs <;> omega

theorem laneBlock_ok (h : VPre src stride w b total) (mac : A → ℕ → W → A) (init : A) (fin : A → ℕ) (B : ℕ) :
    BlockVal B total (laneBlock mac init fin B b src stride w)
      (fun p => fin (tapsL mac init w (colSamples src stride b p) (List.range b.size))) := by
  intro sx hx
  have key := unrolled_eq (size := b.size) (step := laneStep mac B b src stride w sx) (step' := laneStep mac B b src stride w sx)
    (inv := fun n => (List.range B).map fun c => tapsL mac init w (colSamples src stride b (sx + c)) (List.range n))
    (fun j hj => laneStep_inv h hx hj) (fun j hj => laneStep_inv h hx hj)
  have e : ((List.range B).map fun c => tapsL mac init w (colSamples src stride b (sx + c)) (List.range 0)) =
      List.replicate B init := by
    refine List.eq_replicate_iff.mpr ⟨by simp, ?_⟩
    intro y hy
    obtain ⟨r, _, rfl⟩ := List.mem_map.mp hy
    rfl
  rw [e] at key
  unfold laneBlock
  dsimp only
  rw [sizeW h, key]
  simp only [Option.bind_eq_bind, Option.bind_some, List.map_map]
  rfl

end

section
variable {src : List ℕ} {stride : ℕ} {b : Bounds}

theorem neonColumnLb_ok (d : ℕ) {w : List ℤ} {dst : List ℕ} (h : VPre src stride w b dst.length) :
    ∃ r, neonColumnLb d b src dst stride w = some r ∧ r.length = dst.length ∧
      ∀ p, p < dst.length → r[p]? = some (columnVal 16 dst.length
        (fun p => narrowQ d (tapsL tapQ NEON16_ROUNDING w (colSamples src stride b p) (List.range b.size)))
        (fun p => narrowTail d (tapsL tapTail NEON16_ROUNDING w (colSamples src stride b p) (List.range b.size))) p) :=
  sseChain (laneBlock_ok h _ _ _ 16) (laneBlock_ok h _ _ _ 8) (laneBlock_ok h _ _ _ 4) (laneBlock_ok h _ _ _ 1) dst rfl

theorem neonColumnHalf_ok (d : ℕ) {w : List ℚ} {dst : List ℕ} (h : VPre src stride w b dst.length) :
    ∃ r, neonColumnHalf d b src dst stride w = some r ∧ r.length = dst.length ∧
      ∀ p, p < dst.length → r[p]? = some (columnVal 16 dst.length
        (fun p => narrowH d (tapsL tapH 0 w (colSamples src stride b p) (List.range b.size)))
        (fun p => narrowH d (tapsL tapH 0 w (colSamples src stride b p) (List.range b.size))) p) :=
  sseChain (laneBlock_ok h _ _ _ 16) (laneBlock_ok h _ _ _ 8) (laneBlock_ok h _ _ _ 4) (laneBlock_ok h _ _ _ 1) dst rfl

theorem neonColumnF32_ok (d : ℕ) {w : List ℚ} {dst : List ℕ} (h : VPre src stride w b dst.length) :
    ∃ r, neonColumnF32 d b src dst stride w = some r ∧ r.length = dst.length ∧
      ∀ p, p < dst.length → r[p]? = some (columnVal 16 dst.length
        (fun p => narrowF d (tapsL tapF 0 w (colSamples src stride b p) (List.range b.size)))
        (fun p => narrowFTail d (tapsL tapFTail 0 w (colSamples src stride b p) (List.range b.size))) p) :=
  sseChain (laneBlock_ok h _ _ _ 16) (laneBlock_ok h _ _ _ 8) (laneBlock_ok h _ _ _ 4) (laneBlock_ok h _ _ _ 1) dst rfl

end

/-! ### RGBA rows -/

/-- Sample of channel `c` of the window's pixel `k` in a row `f`; 0 outside the window. -/
def win16 (N : ℕ) (b : Bounds) (f : ℕ → ℕ) (k c : ℕ) : ℕ :=
  if k < b.size ∧ c < N then f ((b.start + k) * N + c) else 0

theorem pureLoop_hom {σ τ : Type} (φ : τ → σ) {margin step size : ℕ} {g : ℕ → σ → σ} {G : ℕ → τ → τ}
    (h : ∀ j t, φ (G j t) = g j (φ t)) : ∀ fuel jx t,
      φ (pureLoop margin step size G fuel jx t) = pureLoop margin step size g fuel jx (φ t) := by
  intro fuel
  induction fuel with
  | zero => intro jx t; rfl
  | succ fuel ih =>
    intro jx t
    unfold pureLoop
    split_ifs
    · rw [ih, h]
    · rfl

/-- The order in which the row handler adds the pixels of a window of `n`. -/
def tapOrder (n : ℕ) : List ℕ :=
  let j8 := loopEnd 8 8 n n 0
  let j4 := loopEnd 4 4 n n j8
  let j2 := loopEnd 2 2 n n j4
  let L := pureLoop 8 8 n (fun j L => L ++ [j + 3, j + 2, j + 1, j, j + 7, j + 6, j + 5, j + 4]) n 0 []
  let L := pureLoop 4 4 n (fun j L => L ++ [j + 3, j + 2, j + 1, j]) n j8 L
  let L := pureLoop 2 2 n (fun j L => L ++ [j + 1, j]) n j4 L
  pureLoop 0 1 n (fun j L => L ++ [j]) n j2 L

theorem range_add_perm (j m : ℕ) {L M : List ℕ} (h : L.Perm (List.range j)) (hM : M.Perm ((List.range m).map (j + ·))) :
    (L ++ M).Perm (List.range (j + m)) := by
  rw [List.range_add]
  exact h.append hM

theorem tapOrder_perm (n : ℕ) : (tapOrder n).Perm (List.range n) := by
  unfold tapOrder
  dsimp only
  have h := pureLoop_inv (P := fun j (L : List ℕ) => L.Perm (List.range j)) (margin := 8) (step := 8) (size := n)
    (g := fun j L => L ++ [j + 3, j + 2, j + 1, j, j + 7, j + 6, j + 5, j + 4]) (by omega)
    (fun j L _ h => range_add_perm j 8 h (by
      have : [3, 2, 1, 0, 7, 6, 5, 4].Perm (List.range 8) := by decide
      exact this.map (j + ·))) n 0 [] (by omega) (by simp)
  have h := pureLoop_inv (P := fun j (L : List ℕ) => L.Perm (List.range j)) (margin := 4) (step := 4) (size := n)
    (g := fun j L => L ++ [j + 3, j + 2, j + 1, j]) (by omega)
    (fun j L _ h => range_add_perm j 4 h (by
      have : [3, 2, 1, 0].Perm (List.range 4) := by decide
      exact this.map (j + ·))) n _ _ h.2 h.1
  have h := pureLoop_inv (P := fun j (L : List ℕ) => L.Perm (List.range j)) (margin := 2) (step := 2) (size := n)
    (g := fun j L => L ++ [j + 1, j]) (by omega)
    (fun j L _ h => range_add_perm j 2 h (by
      have : [1, 0].Perm (List.range 2) := by decide
      exact this.map (j + ·))) n _ _ h.2 h.1
  have e := loopEnd_last h.2
  have h := pureLoop_inv (P := fun j (L : List ℕ) => L.Perm (List.range j)) (margin := 0) (step := 1) (size := n)
    (g := fun j L => L ++ [j]) (by omega)
    (fun j L _ h => range_add_perm j 1 h (by simp)) n _ _ h.2 h.1
  rw [e] at h
  exact h.1

/-- The four lanes after the taps of `L`. -/
def lanesQ (w : List ℤ) (px : ℕ → ℕ → ℕ) (L : List ℕ) : List ℤ :=
  (List.range 4).map fun c => tapsL tapQ NEON16_ROUNDING w (fun k => px k c) L

theorem vtapLane_lanesQ (w : List ℤ) (px : ℕ → ℕ → ℕ) (L : List ℕ) (k : ℕ) :
    vtapLane tapQ (lanesQ w px L) ((List.range 4).map fun c => px k c) (w.getD k 0) = lanesQ w px (L ++ [k]) := by
  unfold lanesQ
  rw [vtapLane_map]
  simp only [tapsL_snoc]

theorem quad_pxRange (px : ℕ → ℕ → ℕ) (j n i : ℕ) (hi : i < n) :
    quad (pxRange 4 px j 0 (4 * n)) i = (List.range 4).map fun c => px (j + i) c := by
  unfold quad pxRange
  apply List.ext_getElem?
  intro c
  rw [List.getElem?_take]
  by_cases hc : c < 4
  · rw [if_pos hc, List.getElem?_drop, List.getElem?_map, List.getElem?_map, List.getElem?_range (by omega),
      List.getElem?_range hc]
    simp only [Option.map_some, Nat.zero_add]
    rw [show (4 * i + c) / 4 = i by omega, show (4 * i + c) % 4 = c by omega]
  · rw [if_neg hc, List.getElem?_eq_none (by simpa using hc)]

section
variable (w : List ℤ) (px : ℕ → ℕ → ℕ) (L : List ℕ) (j : ℕ)

theorem rgbaQ1_lanes : rgbaQ1 (wRange w j 1) (pxRange 4 px j 0 (4 * 1)) (lanesQ w px L) = lanesQ w px (L ++ [j]) := by
  unfold rgbaQ1
  have := quad_pxRange px j 1 0 (by omega)
  rw [show quad (pxRange 4 px j 0 (4 * 1)) 0 = pxRange 4 px j 0 (4 * 1) from rfl] at this
  rw [this, wRange_getD w _ _ _ (by omega), Nat.add_zero, vtapLane_lanesQ]

theorem rgbaQ2_lanes : rgbaQ2 (wRange w j 2) (pxRange 4 px j 0 (4 * 2)) (lanesQ w px L) = lanesQ w px (L ++ [j + 1, j]) := by
  unfold rgbaQ2
  simp only [quad_pxRange px j 2 _ (show 0 < 2 by omega), quad_pxRange px j 2 _ (show 1 < 2 by omega),
    wRange_getD w _ _ _ (show 0 < 2 by omega), wRange_getD w _ _ _ (show 1 < 2 by omega), vtapLane_lanesQ, List.append_assoc,
    List.cons_append, List.nil_append, Nat.add_zero]

theorem rgbaQ4_lanes : rgbaQ4 (wRange w j 4) (pxRange 4 px j 0 (4 * 4)) (lanesQ w px L) =
    lanesQ w px (L ++ [j + 3, j + 2, j + 1, j]) := by
  unfold rgbaQ4
  simp only [quad_pxRange px j 4 _ (show 0 < 4 by omega), quad_pxRange px j 4 _ (show 1 < 4 by omega),
    quad_pxRange px j 4 _ (show 2 < 4 by omega), quad_pxRange px j 4 _ (show 3 < 4 by omega),
    wRange_getD w _ _ _ (show 0 < 4 by omega), wRange_getD w _ _ _ (show 1 < 4 by omega),
    wRange_getD w _ _ _ (show 2 < 4 by omega), wRange_getD w _ _ _ (show 3 < 4 by omega), vtapLane_lanesQ, List.append_assoc,
    List.cons_append, List.nil_append, Nat.add_zero]

theorem rgbaQ8_lanes : rgbaQ8 (wRange w j 8) (pxRange 4 px j 0 (4 * 8)) (lanesQ w px L) =
    lanesQ w px (L ++ [j + 3, j + 2, j + 1, j, j + 7, j + 6, j + 5, j + 4]) := by
  unfold rgbaQ8
  simp only [quad_pxRange px j 8 _ (show 0 < 8 by omega), quad_pxRange px j 8 _ (show 1 < 8 by omega),
    quad_pxRange px j 8 _ (show 2 < 8 by omega), quad_pxRange px j 8 _ (show 3 < 8 by omega),
    quad_pxRange px j 8 _ (show 4 < 8 by omega), quad_pxRange px j 8 _ (show 5 < 8 by omega),
    quad_pxRange px j 8 _ (show 6 < 8 by omega), quad_pxRange px j 8 _ (show 7 < 8 by omega),
    wRange_getD w _ _ _ (show 0 < 8 by omega), wRange_getD w _ _ _ (show 1 < 8 by omega),
    wRange_getD w _ _ _ (show 2 < 8 by omega), wRange_getD w _ _ _ (show 3 < 8 by omega),
    wRange_getD w _ _ _ (show 4 < 8 by omega), wRange_getD w _ _ _ (show 5 < 8 by omega),
    wRange_getD w _ _ _ (show 6 < 8 by omega), wRange_getD w _ _ _ (show 7 < 8 by omega), vtapLane_lanesQ, List.append_assoc,
    List.cons_append, List.nil_append, Nat.add_zero]

end

theorem rgbaQLoad_pure {n : ℕ} {core : List ℤ → List ℕ → List ℤ → List ℤ} {src : List ℕ} {offs : List ℕ} {w : List ℤ}
    {b : Bounds} (hp : HPre 4 src offs w b) {o : ℕ} (ho : o ∈ offs) {jx : ℕ} (h : jx + n ≤ b.size) (s : List ℤ) :
    rgbaQLoad n core src w b jx o s =
      some (core (wRange w jx n) (pxRange 4 (win16 4 b fun i => src.getD (o + i) 0) jx 0 (4 * n)) s) := by
  have hin := hp.inside o ho
  have hw := hp.weights
  have e : (b.start + b.size) * 4 = b.start * 4 + b.size * 4 := by ring
  have e2 : (b.start + jx) * 4 = b.start * 4 + jx * 4 := by ring
  unfold rgbaQLoad
  rw [loadW16_eq (by omega), slice?_eq_some (by omega) (by omega)]
  simp only [Option.bind_eq_bind, Option.bind_some]
  rw [Nat.add_sub_cancel_left, slice_eq_map_range 0 (by omega)]
  congr 2
  unfold pxRange
  apply List.map_congr_left
  intro i hi
  have hi : i < 4 * n := by simpa using hi
  unfold win16
  rw [if_pos ⟨by omega, by omega⟩]
  congr 1
  omega

/-- What the RGBA row handler computes for channel `c`. -/
def qH (d : ℕ) (w : List ℤ) (b : Bounds) (f : ℕ → ℕ) (c : ℕ) : ℕ :=
  narrowQ d (tapsL tapQ NEON16_ROUNDING w (fun k => win16 4 b f k c) (tapOrder b.size))

theorem rgbaNeonLb16_ok (d : ℕ) {src : List ℕ} {offs : List ℕ} {w : List ℤ} {b : Bounds} (hp : HPre 4 src offs w b) :
    rgbaNeonLb16 d src offs w b =
      some (offs.map fun o => (List.range 4).map fun c => qH d w b (fun i => src.getD (o + i) 0) c) := by
  unfold rgbaNeonLb16
  dsimp only
  rw [rowsLoop_pure (f := rgbaQLoad 8 rgbaQ8 src w b)
    (g := fun o => step1 4 8 (4 * 8) rgbaQ8 w (win16 4 b fun i => src.getD (o + i) 0))
    (fun jx h o ho s => rgbaQLoad_pure hp ho (by omega) s)]
  simp only [Option.bind_eq_bind, Option.bind_some]
  rw [rowsLoop_pure (f := rgbaQLoad 4 rgbaQ4 src w b)
    (g := fun o => step1 4 4 (4 * 4) rgbaQ4 w (win16 4 b fun i => src.getD (o + i) 0))
    (fun jx h o ho s => rgbaQLoad_pure hp ho (by omega) s)]
  simp only [Option.bind_some]
  rw [rowsLoop_pure (f := rgbaQLoad 2 rgbaQ2 src w b)
    (g := fun o => step1 4 2 (4 * 2) rgbaQ2 w (win16 4 b fun i => src.getD (o + i) 0))
    (fun jx h o ho s => rgbaQLoad_pure hp ho (by omega) s)]
  simp only [Option.bind_some]
  rw [rowsLoop_pure (f := rgbaQLoad 1 rgbaQ1 src w b)
    (g := fun o => step1 4 1 (4 * 1) rgbaQ1 w (win16 4 b fun i => src.getD (o + i) 0))
    (fun jx h o ho s => rgbaQLoad_pure hp ho (by omega) s)]
  simp only [Option.bind_some, List.map_map]
  congr 1
  apply List.map_congr_left
  intro o _
  simp only [Function.comp_apply]
  have key : ∀ px : ℕ → ℕ → ℕ, lanesQ w px (tapOrder b.size) =
      pureLoop 0 1 b.size (step1 4 1 (4 * 1) rgbaQ1 w px) b.size (loopEnd 2 2 b.size b.size (loopEnd 4 4 b.size b.size (loopEnd 8 8 b.size b.size 0)))
        (pureLoop 2 2 b.size (step1 4 2 (4 * 2) rgbaQ2 w px) b.size (loopEnd 4 4 b.size b.size (loopEnd 8 8 b.size b.size 0))
          (pureLoop 4 4 b.size (step1 4 4 (4 * 4) rgbaQ4 w px) b.size (loopEnd 8 8 b.size b.size 0)
            (pureLoop 8 8 b.size (step1 4 8 (4 * 8) rgbaQ8 w px) b.size 0 (List.replicate 4 NEON16_ROUNDING)))) := by
    intro px
    unfold tapOrder
    dsimp only
    rw [pureLoop_hom (lanesQ w px) (g := step1 4 1 (4 * 1) rgbaQ1 w px) (fun j L => (rgbaQ1_lanes w px L j).symm),
      pureLoop_hom (lanesQ w px) (g := step1 4 2 (4 * 2) rgbaQ2 w px) (fun j L => (rgbaQ2_lanes w px L j).symm),
      pureLoop_hom (lanesQ w px) (g := step1 4 4 (4 * 4) rgbaQ4 w px) (fun j L => (rgbaQ4_lanes w px L j).symm),
      pureLoop_hom (lanesQ w px) (g := step1 4 8 (4 * 8) rgbaQ8 w px) (fun j L => (rgbaQ8_lanes w px L j).symm)]
    rfl
  rw [← key]
  apply List.map_congr_left
  intro c hc
  have hc : c < 4 := by simpa using hc
  unfold qH lanesQ
  rw [List.getD_eq_getElem?_getD, List.getElem?_map, List.getElem?_range hc]
  simp only [Option.map_some, Option.getD_some]

theorem qH_local (d : ℕ) (w : List ℤ) (b : Bounds) (f g : ℕ → ℕ) (c : ℕ) (hc : c < 4)
    (h : ∀ i, i < (b.start + b.size) * 4 → f i = g i) : qH d w b f c = qH d w b g c := by
  unfold qH
  refine congrArg (narrowQ d) (tapsL_congr fun k _ => ⟨rfl, ?_⟩)
  unfold win16
  split_ifs with hk
  · exact h _ (idx_lt hk.1 hk.2)
  · rfl

end PicScale
