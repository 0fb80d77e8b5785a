import Verif.Model.X86F32
import Verif.SpecX86F32
import Verif.Lemmas.SimdHorizontal
import Verif.Lemmas.Floating

/-! The f32 handlers on x86: what they compute, and that they stay in bounds. -/

namespace PicScale

open Spec

variable {A : Type}

theorem set1v_eq (v : A) : set1v v = (List.range 4).map fun _ => v := by
  simp [set1v, List.replicate, List.range_succ]

theorem preferV_map (o : VecOps A) (fma : Bool) (f g h : ℕ → A) :
    preferV o fma ((List.range 4).map f) ((List.range 4).map g) ((List.range 4).map h) =
      (List.range 4).map fun i => o.mulAdd fma (f i) (g i) (h i) := by
  unfold preferV VecOps.mulAdd
  cases fma
  · simp only [Bool.false_eq_true, if_false, zipWith_map_range]
  · simp only [if_true, List.zip]
    rw [zipWith_map_range 4 Prod.mk, zipWith_map_range]

theorem loadps_eq {src : List A} {off : ℕ} (d0 : A) (h : off + 4 ≤ src.length) :
    loadps src off = some ((List.range 4).map fun i => src.getD (off + i) d0) := by
  unfold loadps
  rw [slice?_eq_some (by omega) h, Nat.add_sub_cancel_left, slice_eq_map_range d0 h]

theorem loadW_eq (o : VecOps A) {w : List ℚ} {j n : ℕ} (h : j + n ≤ w.length) :
    loadW o w j n = some ((List.range n).map fun k => o.weight (w.getD (j + k) 0)) := by
  unfold loadW
  rw [slice?_eq_some (by omega) h, Nat.add_sub_cancel_left, slice_eq_map_range 0 h, Option.map_some, List.map_map]
  rfl

theorem splat_map (o : VecOps A) {n i : ℕ} (f : ℕ → A) (h : i < n) :
    splat o i ((List.range n).map f) = (List.range 4).map fun _ => f i := by
  unfold splat
  rw [set1v_eq]
  congr 1
  funext _
  rw [List.getD_eq_getElem?_getD, List.getElem?_map, List.getElem?_range h]
  rfl

theorem tapSum_snoc (mla : A → A → A → A) (z : A) (p w : ℕ → A) (L : List Tap) (t : Tap) :
    tapSum mla z p w (L ++ [t]) = mla (tapSum mla z p w L) (t.1.elim z p) (t.2.elim z w) := by
  unfold tapSum
  rw [List.foldl_append]
  rfl

/-! ### vertical -/

section vertical

variable {src : List A} {stride : ℕ} {b : Bounds} {w : List ℚ} {total : ℕ}

/-- Value of column `p` after `n` rows. -/
def vAccF (o : VecOps A) (fma : Bool) (src : List A) (stride : ℕ) (b : Bounds) (w : List ℚ) (n p : ℕ) : A :=
  chain (o.mulAdd fma) o.zero (fun k => src.getD (stride * (b.start + k) + p) o.zero)
    (fun k => o.weight (w.getD k 0)) n

theorem VPre.getQ (h : VPre src stride w b total) {k : ℕ} (hk : k < b.size) : w[k]? = some (w.getD k 0) :=
  getElem?_eq_some_getD 0 (by have := h.weights; omega)

/-- State of `R` registers after `n` rows. -/
def vStateF (o : VecOps A) (fma : Bool) (src : List A) (stride : ℕ) (b : Bounds) (w : List ℚ) (R sx n : ℕ) :
    List (List A) :=
  (List.range R).map fun r => (List.range 4).map fun i => vAccF o fma src stride b w n (sx + 4 * r + i)

theorem zip_range_mapF {β : Type} (R : ℕ) (f : ℕ → β) :
    (List.range R).zip ((List.range R).map f) = (List.range R).map fun r => (r, f r) := by
  have := zipWith_map_range R Prod.mk (fun r => r) f
  simpa [List.zip] using this

theorem vStepF_inv (o : VecOps A) (fma : Bool) (h : VPre src stride w b total) {R sx j : ℕ}
    (hx : sx + 4 * R ≤ total) (hj : j < b.size) :
    vStepF o fma R b src stride w sx j (vStateF o fma src stride b w R sx j) =
      some (vStateF o fma src stride b w R sx (j + 1)) := by
  have r0 := h.row (k := j) hj
  unfold vStepF
  rw [h.getQ hj]
  simp only [Option.bind_eq_bind, Option.bind_some]
  unfold vStateF
  rw [zip_range_mapF]
  refine mapM_map_some _ _ _ _ ?_
  intro r hr
  have hr : r < R := by simpa using hr
  dsimp only
  rw [loadps_eq o.zero (by omega)]
  simp only [Option.bind_some]
  rw [set1v_eq, preferV_map]
  simp only [vAccF, chain, Nat.add_assoc]

theorem flatten_range4 {R : ℕ} (g : ℕ → A) :
    ((List.range R).map fun r => (List.range 4).map fun i => g (4 * r + i)).flatten = (List.range (4 * R)).map g := by
  induction R with
  | zero => rfl
  | succ R ih =>
    rw [List.range_succ (n := R), List.map_append, List.flatten_append, ih,
      show 4 * (R + 1) = 4 * R + 1 + 1 + 1 + 1 by omega]
    simp [List.range_succ, Nat.add_assoc]

theorem vBlockF_ok (o : VecOps A) (fma : Bool) (h : VPre src stride w b total) (R : ℕ) :
    BlockOK total (4 * R) (vBlockF o fma R b src stride w) (vAccF o fma src stride b w b.size) := by
  intro x dst hl hx
  unfold vBlockF
  have e0 : List.replicate R (set1v o.zero) = vStateF o fma src stride b w R x 0 := by
    unfold vStateF
    simp only [vAccF, chain, ← set1v_eq]
    rw [List.map_const', List.length_range]
  rw [e0, forRange_spec (inv := vStateF o fma src stride b w R x) (Nat.zero_le _)
    (fun j _ hj => vStepF_inv o fma h hx hj)]
  simp only [Option.bind_eq_bind, Option.bind_some]
  have e1 : (vStateF o fma src stride b w R x b.size).flatten =
      (List.range (4 * R)).map fun c => vAccF o fma src stride b w b.size (x + c) := by
    unfold vStateF
    rw [← flatten_range4]
    simp only [Nat.add_assoc]
  rw [e1]
  exact write_block (val := vAccF o fma src stride b w b.size) dst hl hx

theorem vTailF_ok (o : VecOps A) (fma avx : Bool) (h : VPre src stride w b total) :
    BlockOK total 1 (vTailF o fma avx b src stride w) (vAccF o fma src stride b w b.size) := by
  intro x dst hl hx
  have key : ∀ n, n ≤ b.size → ∃ g : ℕ → A, g 0 = vAccF o fma src stride b w n x ∧
      forRange 0 n (fun j (st : List A) => do
        let w ← w[j]?
        let v ← src[stride * (b.start + j) + x]?
        if avx then some (preferV o fma st (set1v v) (set1v (o.weight w)))
        else some (preferV o fma st [v, o.zero, o.zero, o.zero] [o.weight w, o.zero, o.zero, o.zero]))
        (set1v o.zero) = some ((List.range 4).map g) := by
    intro n
    induction n with
    | zero => intro _; exact ⟨fun _ => o.zero, rfl, by rw [set1v_eq]; rfl⟩
    | succ n ih =>
      intro hn
      obtain ⟨g, g1, g2⟩ := ih (by omega)
      have r0 := h.row (k := n) (by omega)
      unfold forRange at g2 ⊢
      rw [Nat.sub_zero, List.range'_1_concat, List.foldlM_append]
      rw [Nat.sub_zero] at g2
      rw [g2]
      simp only [Option.bind_eq_bind, Option.bind_some, List.foldlM_cons, List.foldlM_nil, Nat.zero_add]
      rw [h.getQ (by omega), getElem?_eq_some_getD o.zero (l := src) (by omega)]
      simp only [Option.bind_some]
      cases avx
      · refine ⟨fun i => o.mulAdd fma (g i) (if i = 0 then src.getD (stride * (b.start + n) + x) o.zero else o.zero)
          (if i = 0 then o.weight (w.getD n 0) else o.zero), ?_, ?_⟩
        · simp only [if_true, g1]
          rfl
        · rw [← preferV_map]
          rfl
      · refine ⟨fun i => o.mulAdd fma (g i) (src.getD (stride * (b.start + n) + x) o.zero) (o.weight (w.getD n 0)), ?_, ?_⟩
        · simp only [g1]
          rfl
        · simp only [if_true, set1v_eq]
          rw [preferV_map]
          rfl
  obtain ⟨g, g1, g2⟩ := key b.size le_rfl
  unfold vTailF
  rw [g2]
  simp only [Option.bind_eq_bind, Option.bind_some]
  have e1 : ((List.range 4).map g).take 1 = (List.range 1).map fun c => vAccF o fma src stride b w b.size (x + c) := by
    simp [List.range_succ, g1]
  rw [e1]
  exact write_block (val := vAccF o fma src stride b w b.size) dst hl hx

theorem sseColumnF_ok (o : VecOps A) (fma : Bool) {dst : List A} (h : VPre src stride w b dst.length) :
    ∃ r, sseColumnF o fma b src dst stride w = some r ∧ r.length = dst.length ∧
      ∀ p, p < dst.length → r[p]? = some (vAccF o fma src stride b w b.size p) := by
  unfold sseColumnF
  dsimp only
  obtain ⟨c1, r1, e1, l1, _, m1, _, v1⟩ := whileBlocks_spec (margin := 24) (step := 24) (by norm_num) (by norm_num)
    (vBlockF_ok o fma h 6) dst.length 0 dst rfl (Nat.zero_le _) (by omega) (fun p hp => absurd hp (by omega))
  obtain ⟨c2, r2, e2, l2, _, m2, _, v2⟩ := whileBlocks_spec (margin := 16) (step := 16) (by norm_num) (by norm_num)
    (vBlockF_ok o fma h 4) dst.length c1 r1 l1 m1 (by omega) v1
  obtain ⟨c3, r3, e3, l3, _, m3, _, v3⟩ := whileBlocks_spec (margin := 8) (step := 8) (by norm_num) (by norm_num)
    (vBlockF_ok o fma h 2) dst.length c2 r2 l2 m2 (by omega) v2
  obtain ⟨c4, r4, e4, l4, _, m4, _, v4⟩ := whileBlocks_spec (margin := 4) (step := 4) (by norm_num) (by norm_num)
    (vBlockF_ok o fma h 1) dst.length c3 r3 l3 m3 (by omega) v3
  obtain ⟨c5, r5, e5, l5, _, _, m5, v5⟩ := whileBlocks_spec (margin := 0) (step := 1) (by norm_num) (by norm_num)
    (vTailF_ok o fma false h) dst.length c4 r4 l4 m4 (by omega) v4
  rw [e1]
  simp only [Option.bind_eq_bind, Option.bind_some]
  rw [e2]
  simp only [Option.bind_some]
  rw [e3]
  simp only [Option.bind_some]
  rw [e4]
  simp only [Option.bind_some]
  rw [e5]
  exact ⟨r5, rfl, l5, fun p hp => v5 p (by omega)⟩

theorem avxColumnF_ok (o : VecOps A) (fma : Bool) {dst : List A} (h : VPre src stride w b dst.length) :
    ∃ r, avxColumnF o fma b src dst stride w = some r ∧ r.length = dst.length ∧
      ∀ p, p < dst.length → r[p]? = some (vAccF o fma src stride b w b.size p) := by
  unfold avxColumnF
  dsimp only
  obtain ⟨c1, r1, e1, l1, _, m1, _, v1⟩ := whileBlocks_spec (margin := 32) (step := 32) (by norm_num) (by norm_num)
    (vBlockF_ok o fma h 8) dst.length 0 dst rfl (Nat.zero_le _) (by omega) (fun p hp => absurd hp (by omega))
  obtain ⟨c2, r2, e2, l2, _, m2, _, v2⟩ := whileBlocks_spec (margin := 16) (step := 16) (by norm_num) (by norm_num)
    (vBlockF_ok o fma h 4) dst.length c1 r1 l1 m1 (by omega) v1
  obtain ⟨c3, r3, e3, l3, _, m3, _, v3⟩ := whileBlocks_spec (margin := 8) (step := 8) (by norm_num) (by norm_num)
    (vBlockF_ok o fma h 2) dst.length c2 r2 l2 m2 (by omega) v2
  obtain ⟨c5, r5, e5, l5, _, _, m5, v5⟩ := whileBlocks_spec (margin := 0) (step := 1) (by norm_num) (by norm_num)
    (vTailF_ok o fma true h) dst.length c3 r3 l3 m3 (by omega) v3
  rw [e1]
  simp only [Option.bind_eq_bind, Option.bind_some]
  rw [e2]
  simp only [Option.bind_some]
  rw [e3]
  simp only [Option.bind_some]
  rw [e5]
  exact ⟨r5, rfl, l5, fun p hp => v5 p (by omega)⟩

end vertical

end PicScale
