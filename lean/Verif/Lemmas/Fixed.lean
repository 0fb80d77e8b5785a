import Verif.Lemmas.Pass
import Verif.Model.Fixed
import Verif.Spec

namespace PicScale

open Finset

@[simp] theorem i32_add_i32 (a b : ℤ) : i32 (a + i32 b) = i32 (a + b) := by
  simp [i32]

@[simp] theorem i32_i32_add (a b : ℤ) : i32 (i32 a + b) = i32 (a + b) := by
  simp [i32]

@[simp] theorem i32_i32 (a : ℤ) : i32 (i32 a) = i32 a := by
  simp [i32]

theorem i32_eq_self {v : ℤ} (h1 : -2147483648 ≤ v) (h2 : v < 2147483648) : i32 v = v := by
  unfold i32
  rw [Int.bmod_def]
  have h := Int.emod_emod_of_dvd v (show (4294967296 : ℤ) ∣ 4294967296 from dvd_refl _)
  by_cases hv : 0 ≤ v
  · rw [Int.emod_eq_of_lt hv (by push_cast; omega)]
    push_cast
    split <;> omega
  · have : v % ((4294967296 : ℕ) : ℤ) = v + 4294967296 := by
      rw [← Int.add_emod_right]
      push_cast
      exact Int.emod_eq_of_lt (by omega) (by omega)
    rw [this]
    push_cast
    split <;> omega

theorem cgMul_map (N : ℕ) (f : ℕ → ℤ) (w : ℤ) :
    cgMul ((List.range N).map f) w = (List.range N).map fun c => i32 (f c * w) := by
  simp [cgMul, Function.comp_def]

theorem zipWith_map_range {α β γ : Type} (N : ℕ) (h : α → β → γ) (f : ℕ → α) (g : ℕ → β) :
    List.zipWith h ((List.range N).map f) ((List.range N).map g) =
      (List.range N).map fun c => h (f c) (g c) := by
  apply List.ext_getElem?
  intro i
  by_cases hi : i < N
  · simp [List.getElem?_zipWith, hi]
  · simp [List.getElem?_zipWith, hi]

theorem cgAdd_map (N : ℕ) (f g : ℕ → ℤ) :
    cgAdd ((List.range N).map f) ((List.range N).map g) =
      (List.range N).map fun c => i32 (f c + g c) := zipWith_map_range N _ f g

theorem accum_fixed (i0 : ℤ) (h0 : i32 i0 = i0) (p w : ℕ → ℤ) (n : ℕ) :
    accum (fun a v k => i32 (a + i32 (v * k))) i0 p w n = i32 (i0 + Spec.wsum n w p) := by
  induction n with
  | zero => simp [accum, Spec.wsum, h0]
  | succ n ih =>
    simp only [accum]
    rw [ih, i32_add_i32, i32_i32_add]
    simp only [Spec.wsum, sum_range_succ]
    congr 1
    ring

theorem replicate_eq_map_range {α : Type} (N : ℕ) (v : α) :
    List.replicate N v = (List.range N).map fun _ => v := by
  simp [List.map_const']

theorem slice_getD {α : Type} {l s : List α} {a b : ℕ} (h : slice? l a b = some s) (i : ℕ) (d : α)
    (hi : i < b - a) : s.getD i d = l.getD (a + i) d := by
  simp only [List.getD_eq_getElem?_getD, slice?_get h i hi]

/-- Value of one output sample of the horizontal pass, before narrowing. -/
def hSum (N : ℕ) (src : List ℕ) (base : ℕ) (w : List ℤ) (b : Bounds) (c : ℕ) : ℤ :=
  i32 (16384 + Spec.wsum b.size (fun k => w.getD k 0)
    (fun k => (src.getD (base + (b.start + k) * N + c) 0 : ℕ)))

theorem rowPixelSums_eq {N : ℕ} (hN : 1 ≤ N ∧ N ≤ 4) {src : List ℕ} {base : ℕ} {w : List ℤ}
    {b : Bounds} (hsrc : base + (b.start + b.size) * N ≤ src.length) (hw : b.size ≤ w.length) :
    rowPixelSums N src base w b = some ((List.range N).map (hSum N src base w b)) := by
  have hb : b.start * N + base + b.size * N ≤ src.length := by
    have : (b.start + b.size) * N = b.start * N + b.size * N := by ring
    omega
  -- facts shared by the specially coded sizes
  have key : ∀ m, b.size = m → ∃ s, slice? src (b.start * N + base) (b.start * N + base + m * N) = some s ∧
      s.length = m * N ∧
      (∀ i, i < m * N → s.getD i 0 = src.getD (b.start * N + base + i) 0) ∧
      (∀ k, k < m → loadGroup Int.ofNat N s (N * k) = some ((List.range N).map fun c =>
        ((src.getD (b.start * N + base + (N * k + c)) 0 : ℕ) : ℤ))) ∧
      (∃ ws, slice? w 0 m = some ws ∧ ∀ k, k < m → ws[k]? = some (w.getD k 0)) := by
    intro m hm
    subst hm
    obtain ⟨s, hs⟩ : ∃ s, slice? src (b.start * N + base) (b.start * N + base + b.size * N) = some s :=
      ⟨_, slice?_eq_some (by omega) (by omega)⟩
    obtain ⟨ws, hws⟩ : ∃ ws, slice? w 0 b.size = some ws := ⟨_, slice?_eq_some (by omega) (by omega)⟩
    have hl := slice?_length hs
    refine ⟨s, hs, by omega, fun i hi => slice_getD hs i 0 (by omega), ?_, ws, hws, ?_⟩
    · intro k hk
      have hkm : N * k + N ≤ b.size * N := by
        have := Nat.mul_le_mul_right N (show k + 1 ≤ b.size from hk)
        nlinarith
      rw [loadGroup_eq hN 0 (by omega)]
      congr 1
      apply List.map_congr_left
      intro c hc
      have hc : c < N := by simpa using hc
      rw [slice_getD hs _ _ (by omega)]
      rfl
    · intro k hk
      rw [slice?_get hws k (by omega), Nat.zero_add]
      exact getElem?_eq_some_getD 0 (by omega)
  have hfin : ∀ k c, b.start * N + base + (N * k + c) = base + (b.start + k) * N + c := by
    intro k c; ring
  unfold rowPixelSums
  dsimp only
  split_ifs with h2 h3 h4 h6
  · obtain ⟨s, e1, _, _, e2, ws, e3, e4⟩ := key 2 h2
    have l0 := e2 0 (by omega)
    have l1 := e2 1 (by omega)
    simp only [Nat.mul_zero, Nat.mul_one] at l0 l1
    simp only [e1, e3, e4 0 (by omega), e4 1 (by omega), l0, l1, Option.bind_eq_bind, Option.bind_some, cgMul_map, cgAdd_map,
      replicate_eq_map_range, ROUNDING_CONST]
    congr 1
    apply List.map_congr_left
    intro c _
    have t0 := hfin 0 c
    have t1 := hfin 1 c
    simp only [Nat.mul_zero, Nat.mul_one] at t0 t1
    simp only [i32_add_i32, i32_i32_add, hSum, h2, Spec.wsum, sum_range_succ, range_zero, sum_empty,
      t0, t1]
    congr 1
    ring
  · obtain ⟨s, e1, _, _, e2, ws, e3, e4⟩ := key 3 h3
    have l0 := e2 0 (by omega)
    have l1 := e2 1 (by omega)
    have l2 := e2 2 (by omega)
    simp only [Nat.mul_zero, Nat.mul_one] at l0 l1
    simp only [e1, e3, e4 0 (by omega), e4 1 (by omega), e4 2 (by omega), l0, l1, l2,
      Option.bind_eq_bind, Option.bind_some, cgMul_map, cgAdd_map, replicate_eq_map_range, ROUNDING_CONST]
    congr 1
    apply List.map_congr_left
    intro c _
    have t0 := hfin 0 c
    have t1 := hfin 1 c
    have t2 := hfin 2 c
    simp only [Nat.mul_zero, Nat.mul_one] at t0 t1
    simp only [i32_add_i32, i32_i32_add, hSum, h3, Spec.wsum, sum_range_succ, range_zero, sum_empty,
      t0, t1, t2]
    congr 1
    ring
  · obtain ⟨s, e1, _, _, e2, ws, e3, e4⟩ := key 4 h4
    have l0 := e2 0 (by omega)
    have l1 := e2 1 (by omega)
    have l2 := e2 2 (by omega)
    have l3 := e2 3 (by omega)
    simp only [Nat.mul_zero, Nat.mul_one] at l0 l1
    simp only [e1, e3, e4 0 (by omega), e4 1 (by omega), e4 2 (by omega), e4 3 (by omega), l0, l1, l2,
      l3, Option.bind_eq_bind, Option.bind_some, cgMul_map, cgAdd_map, replicate_eq_map_range, ROUNDING_CONST]
    congr 1
    apply List.map_congr_left
    intro c _
    have t0 := hfin 0 c
    have t1 := hfin 1 c
    have t2 := hfin 2 c
    have t3 := hfin 3 c
    simp only [Nat.mul_zero, Nat.mul_one] at t0 t1
    simp only [i32_add_i32, i32_i32_add, hSum, h4, Spec.wsum, sum_range_succ, range_zero, sum_empty,
      t0, t1, t2, t3]
    congr 1
    ring
  · obtain ⟨s, e1, _, _, e2, ws, e3, e4⟩ := key 6 h6
    have l0 := e2 0 (by omega)
    have l1 := e2 1 (by omega)
    have l2 := e2 2 (by omega)
    have l3 := e2 3 (by omega)
    have l4 := e2 4 (by omega)
    have l5 := e2 5 (by omega)
    simp only [Nat.mul_zero, Nat.mul_one] at l0 l1
    simp (maxSteps := 10000000) only [e1, e3, e4 0 (by omega), e4 1 (by omega), e4 2 (by omega), e4 3 (by omega),
      e4 4 (by omega), e4 5 (by omega), l0, l1, l2,
      l3, l4, l5, Option.bind_eq_bind, Option.bind_some, cgMul_map, cgAdd_map, replicate_eq_map_range, ROUNDING_CONST]
    congr 1
    apply List.map_congr_left
    intro c _
    have t0 := hfin 0 c
    have t1 := hfin 1 c
    have t2 := hfin 2 c
    have t3 := hfin 3 c
    have t4 := hfin 4 c
    have t5 := hfin 5 c
    simp only [Nat.mul_zero, Nat.mul_one] at t0 t1
    simp only [i32_add_i32, i32_i32_add, hSum, h6, Spec.wsum, sum_range_succ, range_zero, sum_empty,
      t0, t1, t2, t3, t4, t5]
    congr 1
    ring
  · rw [groupFold_eq hN (st := fun a v k => i32 (a + i32 (v * k)))
      (fun f g w => by rw [cgMul_map, cgAdd_map]) 0 0 hb hw]
    congr 1
    apply List.map_congr_left
    intro c _
    rw [accum_fixed _ (by decide), hSum]
    congr 3
    funext k
    rw [show b.start * N + base + k * N + c = base + (b.start + k) * N + c by ring]
    rfl

theorem rows4PixelSums_eq {N : ℕ} (hN : 1 ≤ N ∧ N ≤ 4) {src : List ℕ} {stride : ℕ} {w : List ℤ}
    {b : Bounds} (hsrc : stride * 3 + (b.start + b.size) * N ≤ src.length) (hw : b.size ≤ w.length) :
    rows4PixelSums N src stride w b = some ((List.range N).map (hSum N src (stride * 0) w b),
      (List.range N).map (hSum N src (stride * 1) w b), (List.range N).map (hSum N src (stride * 2) w b),
      (List.range N).map (hSum N src (stride * 3) w b)) := by
  unfold rows4PixelSums
  split_ifs with h
  · rw [rowPixelSums_eq hN (by omega) hw, rowPixelSums_eq hN (by omega) hw,
      rowPixelSums_eq hN (by omega) hw, rowPixelSums_eq hN (by omega) hw]
    simp
  · have hb : b.start * N + stride * 3 + b.size * N ≤ src.length := by
      have : (b.start + b.size) * N = b.start * N + b.size * N := by ring
      omega
    rw [groupFold4_eq hN (st := fun a v k => i32 (a + i32 (v * k)))
      (fun f g w => by rw [cgMul_map, cgAdd_map]) 0 0 hb hw]
    have : ∀ r c, accum (fun a v k => i32 (a + i32 (v * k))) ROUNDING_CONST
        (fun k => Int.ofNat (src.getD (b.start * N + stride * r + k * N + c) 0))
        (fun k => w.getD k 0) b.size = hSum N src (stride * r) w b c := by
      intro r c
      rw [accum_fixed _ (by decide), hSum]
      congr 3
      funext k
      rw [show b.start * N + stride * r + k * N + c = stride * r + (b.start + k) * N + c by ring]
      rfl
    simp only [this]

/-- Value of one output sample of the vertical pass, before narrowing; `p` is the position inside
the row. -/
def vSum (src : List ℕ) (stride : ℕ) (w : List ℤ) (b : Bounds) (p : ℕ) : ℤ :=
  i32 (Spec.wsum b.size (fun k => w.getD k 0) (fun k => (src.getD ((b.start + k) * stride + p) 0 : ℕ)))

theorem mapM_map_some {α β γ : Type} (l : List α) (f : β → Option γ) (g : α → β) (h : α → γ)
    (hf : ∀ a ∈ l, f (g a) = some (h a)) : (l.map g).mapM f = some (l.map h) := by
  induction l with
  | nil => simp
  | cons a l ih =>
    simp only [List.map_cons, List.mapM_cons]
    rw [hf a (by simp), ih (fun b hb => hf b (by simp [hb]))]
    rfl

theorem columnStep_eq {R B : ℕ} {src : List ℕ} {off : ℕ} {w : ℤ} {f : ℕ → ℤ}
    (h : off + B * R ≤ src.length) :
    columnStep R B src off w ((List.range R).map fun r => (List.range B).map fun j => f (B * r + j)) =
      some ((List.range R).map fun r => (List.range B).map fun j =>
        i32 (f (B * r + j) + i32 ((src.getD (off + (B * r + j)) 0 : ℕ) * w))) := by
  unfold columnStep
  have hz : (List.range R).zip ((List.range R).map fun r => (List.range B).map fun j => f (B * r + j)) =
      (List.range R).map fun r => (r, (List.range B).map fun j => f (B * r + j)) := by
    apply List.ext_getElem?
    intro i
    by_cases hi : i < R
    · simp [List.getElem?_zip_eq_some, hi]
    · simp [hi]
  rw [hz]
  refine mapM_map_some _ _ _ _ ?_
  intro r hr
  have hr : r < R := by simpa using hr
  have hle : B * r + B ≤ B * R := by
    have := Nat.mul_le_mul_left B (show r + 1 ≤ R from hr)
    rw [Nat.mul_add] at this; omega
  have e : B * (r + 1) = B * r + B := by ring
  obtain ⟨s, hs⟩ : ∃ s, slice? src (off + B * r) (off + B * (r + 1)) = some s :=
    ⟨_, slice?_eq_some (by omega) (by omega)⟩
  have hsl := slice?_length hs
  have hs2 : s = (List.range B).map fun j => src.getD (off + (B * r + j)) 0 := by
    apply List.ext_getElem?
    intro i
    by_cases hi : i < B
    · rw [getElem?_eq_some_getD 0 (by omega), slice_getD hs i 0 (by omega)]
      simp [hi, Nat.add_assoc]
    · rw [List.getElem?_eq_none (by omega)]
      simp [hi]
  simp only [hs, Option.bind_eq_bind, Option.bind_some]
  rw [hs2, zipWith_map_range]

theorem columnStores_write {S A : Type} {R B x : ℕ} (fin : A → S) {f : ℕ → A} (dst : List S)
    (hd : x + B * R ≤ dst.length) :
    ∃ r, ((List.range R).zip ((List.range R).map fun r => (List.range B).map fun j => f (B * r + j))).foldlM
      (fun d rs => writeAt? d (x + B * rs.1) (rs.2.map fin)) dst = some r ∧
      r.length = dst.length ∧
      (∀ j, j < B * R → r[x + j]? = some (fin (f j))) ∧
      (∀ p, (p < x ∨ x + B * R ≤ p) → r[p]? = dst[p]?) := by
  have hz : (List.range R).zip ((List.range R).map fun r => (List.range B).map fun j => f (B * r + j)) =
      (List.range R).map fun r => (r, (List.range B).map fun j => f (B * r + j)) := by
    apply List.ext_getElem?
    intro i
    by_cases hi : i < R
    · simp [List.getElem?_zip_eq_some, hi]
    · simp [hi]
  rw [hz]
  clear hz
  induction R with
  | zero => exact ⟨dst, by simp, rfl, by simp, by simp⟩
  | succ R ih =>
    have e : B * (R + 1) = B * R + B := by ring
    obtain ⟨r, h1, h2, h3, h4⟩ := ih (by omega)
    rw [List.range_succ, List.map_append, List.foldlM_append, h1]
    simp only [List.map_cons, List.map_nil, List.foldlM_cons, List.foldlM_nil, Option.bind_eq_bind,
      Option.bind_some]
    obtain ⟨r', g1, g2, g3, g4⟩ := writeAt?_spec (l := r) (a := x + B * R)
      (v := ((List.range B).map fun j => f (B * R + j)).map fin) (by simp; omega)
    simp only [List.length_map, List.length_range] at g3 g4
    refine ⟨r', by rw [g1]; rfl, by omega, ?_, ?_⟩
    · intro j hj
      by_cases hj' : j < B * R
      · rw [g4 _ (by omega)]; exact h3 j hj'
      · have := g3 (j - B * R) (by omega)
        rw [show x + B * R + (j - B * R) = x + j by omega] at this
        rw [this]
        have hjj : j - B * R < B := by omega
        simp only [List.map_map, List.getElem?_map, List.getElem?_range hjj, Option.map_some,
          Function.comp_apply]
        rw [show B * R + (j - B * R) = j by omega]
    · intro p hp
      rw [g4 p (by omega), h4 p (by omega)]

theorem columnBlock_ok {R B hi total : ℕ} {src : List ℕ} {stride : ℕ} {w : List ℤ} {b : Bounds}
    (hsz : 1 ≤ b.size) (hw : b.size ≤ w.length)
    (hsrc : (b.start + b.size - 1) * stride + total ≤ src.length) :
    BlockOK total (B * R) (columnBlock R B hi src stride w b)
      (fun p => saturateNarrow hi (vSum src stride w b p)) := by
  intro x dst hl hx
  obtain ⟨w0, ws, rfl⟩ : ∃ a l, w = a :: l := by
    cases w with
    | nil => simp at hw; omega
    | cons a l => exact ⟨a, l, rfl⟩
  have hrow : ∀ k, k < b.size → stride * (b.start + k) + x + B * R ≤ src.length := by
    intro k hk
    have : stride * (b.start + k) ≤ (b.start + b.size - 1) * stride := by
      rw [Nat.mul_comm]; exact Nat.mul_le_mul_right _ (by omega)
    omega
  let P : ℕ → ℕ → ℤ := fun q k => (src.getD (stride * (b.start + k) + x + q) 0 : ℕ)
  let F : ℕ → ℕ → ℤ := fun n q => accum (fun a v k => i32 (a + i32 (v * k))) 0 (P q)
    (fun k => (w0 :: ws).getD k 0) n
  have hstep : ∀ k, k < b.size → columnStep R B src (stride * (b.start + k) + x) ((w0 :: ws).getD k 0)
      ((List.range R).map fun r => (List.range B).map fun j => F k (B * r + j)) =
      some ((List.range R).map fun r => (List.range B).map fun j => F (k + 1) (B * r + j)) := by
    intro k hk
    rw [columnStep_eq (by have := hrow k hk; omega)]
    rfl
  have h0 : List.replicate R (List.replicate B (0 : ℤ)) =
      (List.range R).map fun r => (List.range B).map fun j => F 0 (B * r + j) := by
    simp [F, accum, List.map_const']
  have hs0 := hstep 0 (by omega)
  simp only [Nat.add_zero, List.getD_cons_zero, Nat.zero_add] at hs0
  have hloop : ((((w0 :: ws).take b.size).drop 1).zipIdx).foldlM
      (fun st wj => columnStep R B src (stride * (b.start + wj.2 + 1) + x) wj.1 st)
      ((List.range R).map fun r => (List.range B).map fun j => F 1 (B * r + j)) =
      some ((List.range R).map fun r => (List.range B).map fun j => F b.size (B * r + j)) := by
    have hlen : ((((w0 :: ws).take b.size).drop 1).zipIdx).length = b.size - 1 := by
      simp only [List.length_zipIdx, List.length_drop, List.length_take]
      omega
    have := foldlM_take
      (fun st wj => columnStep R B src (stride * (b.start + wj.2 + 1) + x) wj.1 st)
      (((((w0 :: ws).take b.size).drop 1).zipIdx)) (fun i => ((w0 :: ws).getD (i + 1) 0, i))
      (fun n => (List.range R).map fun r => (List.range B).map fun j => F (n + 1) (B * r + j))
      (b.size - 1)
      (by
        intro i hi
        rw [List.getElem?_zipIdx, List.getElem?_drop, List.getElem?_take, if_pos (by omega),
          getElem?_eq_some_getD 0 (by omega), Nat.add_comm 1 i]
        simp)
      (by
        intro i hi
        have := hstep (i + 1) (by omega)
        rw [← this, Nat.add_assoc])
    rw [List.take_of_length_le (by omega)] at this
    rw [this]
    rw [Nat.sub_add_cancel hsz]
  obtain ⟨r, e1, e2, e3, e4⟩ := columnStores_write (R := R) (B := B) (x := x)
    (saturateNarrow hi) (f := F b.size) dst (by omega)
  refine ⟨r, ?_, by omega, ?_, e4⟩
  · unfold columnBlock
    simp only [Option.bind_eq_bind, h0, hs0, hloop, e1, Option.bind_some]
  · intro p hp1 hp2
    have := e3 (p - x) (by omega)
    rw [show x + (p - x) = p by omega] at this
    rw [this]
    congr 2
    simp only [F, P]
    rw [accum_fixed _ (by decide), vSum, zero_add]
    congr 2
    funext k
    rw [show stride * (b.start + k) + x + (p - x) = (b.start + k) * stride + p by
      rw [Nat.mul_comm]; omega]

theorem columnFixed_spec {hi : ℕ} {src dst : List ℕ} {stride : ℕ} {w : List ℤ} {b : Bounds}
    (hsz : 1 ≤ b.size) (hw : b.size ≤ w.length)
    (hsrc : (b.start + b.size - 1) * stride + dst.length ≤ src.length) :
    ∃ r, columnFixed hi b src dst stride w = some r ∧ r.length = dst.length ∧
      ∀ p, p < dst.length → r[p]? = some (saturateNarrow hi (vSum src stride w b p)) := by
  have ok : ∀ R B, BlockOK dst.length (B * R) (columnBlock R B hi src stride w b)
      (fun p => saturateNarrow hi (vSum src stride w b p)) :=
    fun R B => columnBlock_ok hsz hw hsrc
  obtain ⟨c1, r1, a1, a2, a3, a4, a5, a6⟩ := whileBlocks_spec (margin := 64) (step := 64) (by omega) (by omega)
    (ok 4 16) dst.length 0 dst rfl (by omega) (by omega) (by simp)
  obtain ⟨c2, r2, b1, b2, b3, b4, b5, b6⟩ := whileBlocks_spec (margin := 32) (step := 32) (by omega) (by omega)
    (ok 2 16) dst.length c1 r1 a2 a4 (by omega) a6
  obtain ⟨c3, r3, d1, d2, d3, d4, d5, d6⟩ := whileBlocks_spec (margin := 16) (step := 16) (by omega) (by omega)
    (ok 1 16) dst.length c2 r2 b2 b4 (by omega) b6
  obtain ⟨c4, r4, f1, f2, f3, f4, f5, f6⟩ := whileBlocks_spec (margin := 8) (step := 8) (by omega) (by omega)
    (ok 1 8) dst.length c3 r3 d2 d4 (by omega) d6
  obtain ⟨c5, r5, g1, g2, g3, g4, g5, g6⟩ := whileBlocks_spec (margin := 0) (step := 1) (by omega) (by omega)
    (ok 1 1) dst.length c4 r4 f2 f4 (by omega) f6
  refine ⟨r5, ?_, g2, fun p hp => g6 p (by omega)⟩
  unfold columnFixed
  simp only [Option.bind_eq_bind, a1, b1, d1, f1, g1, Option.bind_some]

end PicScale
