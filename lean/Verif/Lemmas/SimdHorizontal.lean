import Verif.Model.SimdHorizontal
import Verif.Lemmas.SimdVerticalLp

/-!
The x86 horizontal 8-bit handlers: what they compute, for any number of rows, and that they stay in
bounds.
-/

namespace PicScale

open Finset

/-! ### Loops over rows -/

theorem rowsStep_inv {σ : Type} {P Q : ℕ → σ → Prop} {f : ℕ → σ → Option σ} {offs : List ℕ}
    {st : List σ} (hf : ∀ o ∈ offs, ∀ s, P o s → ∃ s', f o s = some s' ∧ Q o s')
    (h : List.Forall₂ P offs st) :
    ∃ st', rowsStep offs f st = some st' ∧ List.Forall₂ Q offs st' := by
  induction h with
  | nil => exact ⟨[], rfl, .nil⟩
  | @cons o s offs st h1 h2 ih =>
    obtain ⟨s', e1, q1⟩ := hf o (by simp) s h1
    obtain ⟨st', e2, q2⟩ := ih (fun o ho => hf o (by simp [ho]))
    refine ⟨s' :: st', ?_, .cons q1 q2⟩
    unfold rowsStep at e2 ⊢
    rw [List.zip_cons_cons, List.mapM_cons]
    dsimp only
    rw [e1, e2]
    rfl

/-- A loop over rows keeps a predicate that every iteration keeps on every row. -/
theorem rowsLoop_inv {σ : Type} {P : ℕ → ℕ → σ → Prop} {margin step size jx : ℕ} {offs : List ℕ}
    {f : ℕ → ℕ → σ → Option σ} {st : List σ} (hs : 1 ≤ step) (hm : step ≤ margin + 1)
    (hf : ∀ m, jx + m * step + margin < size → ∀ o ∈ offs, ∀ s, P o (jx + m * step) s →
      ∃ s', f (jx + m * step) o s = some s' ∧ P o (jx + m * step + step) s')
    (h0 : jx ≤ size) (h : List.Forall₂ (fun o s => P o jx s) offs st) :
    ∃ n st', rowsLoop margin step size offs f jx st = some (jx + n * step, st') ∧
      List.Forall₂ (fun o s => P o (jx + n * step) s) offs st' ∧ jx + n * step ≤ size ∧
      size ≤ jx + n * step + margin ∧ (1 ≤ n → jx + n * step + margin < size + step) := by
  have key : ∀ fuel m (st : List σ), jx + m * step ≤ size → size ≤ fuel + (jx + m * step) →
      (1 ≤ m → jx + m * step + margin < size + step) →
      List.Forall₂ (fun o s => P o (jx + m * step) s) offs st →
      ∃ n st', whileAcc margin step size (fun jx st => rowsStep offs (f jx) st) fuel
          (jx + m * step) st = some (jx + n * step, st') ∧
        List.Forall₂ (fun o s => P o (jx + n * step) s) offs st' ∧ jx + n * step ≤ size ∧
        size ≤ jx + n * step + margin ∧ (1 ≤ n → jx + n * step + margin < size + step) := by
    intro fuel
    induction fuel with
    | zero =>
      intro m st h1 h2 h3 h4
      exact ⟨m, st, rfl, h4, h1, by omega, h3⟩
    | succ fuel ih =>
      intro m st h1 h2 h3 h4
      unfold whileAcc
      by_cases hlt : jx + m * step + margin < size
      · rw [if_pos hlt]
        obtain ⟨st', e1, q1⟩ := rowsStep_inv (hf m hlt) h4
        rw [e1]
        simp only [Option.bind_eq_bind, Option.bind_some]
        have ea : jx + m * step + step = jx + (m + 1) * step := by rw [Nat.add_mul]; omega
        rw [ea] at q1 ⊢
        exact ih (m + 1) st' (by omega) (by omega) (by omega) q1
      · rw [if_neg hlt]
        exact ⟨m, st, rfl, h4, h1, by omega, h3⟩
  have := key size 0 st (by omega) (by omega) (by omega) (by simpa using h)
  simpa [rowsLoop] using this

theorem forall₂_init {σ : Type} {P : ℕ → σ → Prop} (offs : List ℕ) (s : σ)
    (h : ∀ o ∈ offs, P o s) : List.Forall₂ P offs (offs.map fun _ => s) := by
  induction offs with
  | nil => exact .nil
  | cons o offs ih => exact .cons (h o (by simp)) (ih fun o ho => h o (by simp [ho]))

theorem forall₂_map {σ τ : Type} {P : ℕ → σ → Prop} {Q : ℕ → τ → Prop} {g : σ → τ} {offs : List ℕ}
    {st : List σ} (h : List.Forall₂ P offs st) (hg : ∀ o ∈ offs, ∀ s, P o s → Q o (g s)) :
    List.Forall₂ Q offs (st.map g) := by
  induction h with
  | nil => exact .nil
  | @cons o s offs st h1 h2 ih =>
    exact .cons (hg o (by simp) s h1) (ih fun o ho => hg o (by simp [ho]))

theorem forall₂_eq {σ τ : Type} {P : ℕ → σ → Prop} {g : σ → τ} {v : ℕ → τ} {offs : List ℕ}
    {st : List σ} (h : List.Forall₂ P offs st) (hg : ∀ o ∈ offs, ∀ s, P o s → g s = v o) :
    st.map g = offs.map v := by
  induction h with
  | nil => rfl
  | @cons o s offs st h1 h2 ih =>
    rw [List.map_cons, List.map_cons, hg o (by simp) s h1, ih fun o ho => hg o (by simp [ho])]

/-! ### Pixels and loads -/

/-- Memory precondition of the horizontal handlers: the window is inside every row. -/
structure HPre {S W : Type} (N : ℕ) (src : List S) (offs : List ℕ) (w : List W) (b : Bounds) : Prop where
  size : 1 ≤ b.size
  weights : b.size ≤ w.length
  inside : ∀ o ∈ offs, o + (b.start + b.size) * N ≤ src.length

/-- Byte of channel `c` of the window's pixel `k`, in the row that starts at `o`. -/
def pxb (N : ℕ) (src : List ℕ) (o : ℕ) (b : Bounds) (k c : ℕ) : ℕ :=
  src.getD (o + (b.start + k) * N + c) 0 % 256

theorem pxb_lt (N : ℕ) (src : List ℕ) (o : ℕ) (b : Bounds) (k c : ℕ) : pxb N src o b k c < 256 :=
  Nat.mod_lt _ (by norm_num)

theorem HPre.room {S W : Type} {N : ℕ} {src : List S} {offs : List ℕ} {w : List W} {b : Bounds} (h : HPre N src offs w b)
    {o : ℕ} (ho : o ∈ offs) {k : ℕ} (hk : k ≤ b.size) : o + (b.start + k) * N ≤ src.length := by
  have := h.inside o ho
  have h2 : (b.start + k) * N ≤ (b.start + b.size) * N := Nat.mul_le_mul_right _ (by omega)
  omega

theorem loadBytes_px {N : ℕ} (_hN : 0 < N) {src : List ℕ} {o : ℕ} {b : Bounds} {jx d n : ℕ}
    (h : o + (b.start + jx) * N + d + n ≤ src.length) :
    loadBytes src (o + (b.start + jx) * N + d) n =
      some ((List.range n).map fun i => pxb N src o b (jx + (d + i) / N) ((d + i) % N)) := by
  rw [loadBytes_eq h]
  congr 1
  apply List.map_congr_left
  intro i _
  unfold pxb
  congr 2
  have := Nat.div_add_mod (d + i) N
  have e : (b.start + (jx + (d + i) / N)) * N = (b.start + jx) * N + N * ((d + i) / N) := by ring
  rw [e]
  omega

theorem loadBytes_px0 {N : ℕ} (hN : 0 < N) {src : List ℕ} {o : ℕ} {b : Bounds} {jx n : ℕ}
    (h : o + (b.start + jx) * N + n ≤ src.length) :
    loadBytes src (o + (b.start + jx) * N) n =
      some ((List.range n).map fun i => pxb N src o b (jx + i / N) (i % N)) := by
  have := loadBytes_px hN (d := 0) (n := n) (by simpa using h)
  simpa using this

theorem loadWeights_eq {w : List ℤ} {j n : ℕ} (h : j + n ≤ w.length) :
    loadWeights w j n = some (ofLanes16 ((List.range n).map fun k => w.getD (j + k) 0) ++
      List.replicate (16 - 2 * n) 0) := by
  unfold loadWeights weightBytes
  rw [slice?_eq_some (by omega) h, Nat.add_sub_cancel_left, slice_eq_map_range 0 h]
  rfl

/-! ### Exact accumulators -/

/-- Accumulator of channel `c` after `n` pixels of the window. -/
def hAcc (N : ℕ) (src : List ℕ) (o : ℕ) (w : List ℤ) (b : Bounds) (n c : ℕ) : ℤ :=
  i32 (16384 + Spec.wsum n (fun k => i16 (w.getD k 0)) (fun k => (pxb N src o b k c : ℤ)))

theorem i32_hAcc (N : ℕ) (src : List ℕ) (o : ℕ) (w : List ℤ) (b : Bounds) (n c : ℕ) :
    i32 (hAcc N src o w b n c) = hAcc N src o w b n c := by unfold hAcc; exact i32_i32 _

/-- One more pixel. -/
theorem hAcc_succ (N : ℕ) (src : List ℕ) (o : ℕ) (w : List ℤ) (b : Bounds) (n c : ℕ) :
    hAcc N src o w b (n + 1) c =
      i32 (hAcc N src o w b n c + (pxb N src o b n c : ℤ) * i16 (w.getD n 0)) := by
  unfold hAcc
  rw [i32_i32_add]
  simp only [Spec.wsum, sum_range_succ]
  congr 1
  ring

theorem hAcc_add2 (N : ℕ) (src : List ℕ) (o : ℕ) (w : List ℤ) (b : Bounds) (n c : ℕ) :
    hAcc N src o w b (n + 2) c =
      i32 (hAcc N src o w b n c + ((pxb N src o b n c : ℤ) * i16 (w.getD n 0) +
        (pxb N src o b (n + 1) c : ℤ) * i16 (w.getD (n + 1) 0))) := by
  rw [hAcc_succ, hAcc_succ, i32_i32_add, add_assoc]

/-- What `srai`, `packus_epi32` and `packus_epi16` do to one accumulator. -/
theorem compressI32_of (a b c d : ℤ) : compressI32 (ofLanes32 [a, b, c, d]) =
    [packu (i32 a), packu (i32 b), packu (i32 c), packu (i32 d),
     packu (i32 a), packu (i32 b), packu (i32 c), packu (i32 d),
     packu (i32 a), packu (i32 b), packu (i32 c), packu (i32 d),
     packu (i32 a), packu (i32 b), packu (i32 c), packu (i32 d)] := by
  unfold compressI32 packus16 packus32 srai32 PRECISION packu
  simp only [lanes32_ofLanes32, lanes16_ofLanes16, List.map_cons, List.map_nil, List.cons_append,
    List.nil_append, shift_i32]

/-! ### `src/sse/rgba_u8.rs` -/

/-- State of one row: the four channels. -/
def RgbaInv (src : List ℕ) (w : List ℤ) (b : Bounds) (o n : ℕ) (s : Reg) : Prop :=
  s = ofLanes32 [hAcc 4 src o w b n 0, hAcc 4 src o w b n 1, hAcc 4 src o w b n 2,
    hAcc 4 src o w b n 3]

/-- Two pixels of four channels. -/
theorem dot2 {p0 p1 p2 p3 q0 q1 q2 q3 : ℕ} (h0 : p0 < 256) (h1 : p1 < 256) (h2 : p2 < 256)
    (h3 : p3 < 256) (h4 : q0 < 256) (h5 : q1 < 256) (h6 : q2 < 256) (h7 : q3 < 256)
    (x y z t w0 w1 : ℤ) :
    add32 (ofLanes32 [x, y, z, t]) (madd16 [p0, 0, q0, 0, p1, 0, q1, 0, p2, 0, q2, 0, p3, 0, q3, 0]
      (set1bytes32 (ofLanes16 [w0, w1]))) = ofLanes32
      [i32 (x + ((p0 : ℤ) * i16 w0 + (q0 : ℤ) * i16 w1)),
       i32 (y + ((p1 : ℤ) * i16 w0 + (q1 : ℤ) * i16 w1)),
       i32 (z + ((p2 : ℤ) * i16 w0 + (q2 : ℤ) * i16 w1)),
       i32 (t + ((p3 : ℤ) * i16 w0 + (q3 : ℤ) * i16 w1))] :=
  madd_add _ _ _ _ _ _ _ _ _ _ _ _ _ _ _ _ _ _ _ _ _ rfl _ _
    (unpack_zero h0 h1 h2 h3 _ _ _ _ h4 h5 h6 h7) (lanes_pair _ _)

theorem rgbaSse2_core {p : ℕ → ℕ} (hp : ∀ i, p i < 256) (x y z t w0 w1 : ℤ) :
    add32 (ofLanes32 [x, y, z, t]) (madd16 (shuffle8 ((List.range 8).map p ++ List.replicate 8 0)
      rgbaShuffleLo) (set1bytes32 (ofLanes16 [w0, w1]))) = ofLanes32
      [i32 (x + ((p 0 : ℤ) * i16 w0 + (p 4 : ℤ) * i16 w1)),
       i32 (y + ((p 1 : ℤ) * i16 w0 + (p 5 : ℤ) * i16 w1)),
       i32 (z + ((p 2 : ℤ) * i16 w0 + (p 6 : ℤ) * i16 w1)),
       i32 (t + ((p 3 : ℤ) * i16 w0 + (p 7 : ℤ) * i16 w1))] := by
  have e1 : shuffle8 ((List.range 8).map p ++ List.replicate 8 0) rgbaShuffleLo =
      [p 0, 0, p 4, 0, p 1, 0, p 5, 0, p 2, 0, p 6, 0, p 3, 0, p 7, 0] := rfl
  rw [e1, dot2 (hp 0) (hp 1) (hp 2) (hp 3) (hp 4) (hp 5) (hp 6) (hp 7)]

theorem rgbaSse4_core {p : ℕ → ℕ} (hp : ∀ i, p i < 256) (x y z t w0 w1 w2 w3 : ℤ) :
    add32 (add32 (ofLanes32 [x, y, z, t]) (madd16 (shuffle8 ((List.range 16).map p) rgbaShuffleLo)
      (shuffle32 [0, 0, 0, 0] (ofLanes16 [w0, w1, w2, w3] ++ List.replicate 8 0))))
      (madd16 (shuffle8 ((List.range 16).map p) rgbaShuffleHi)
      (shuffle32 [1, 1, 1, 1] (ofLanes16 [w0, w1, w2, w3] ++ List.replicate 8 0))) = ofLanes32
      [i32 (i32 (x + ((p 0 : ℤ) * i16 w0 + (p 4 : ℤ) * i16 w1)) + ((p 8 : ℤ) * i16 w2 + (p 12 : ℤ) * i16 w3)),
       i32 (i32 (y + ((p 1 : ℤ) * i16 w0 + (p 5 : ℤ) * i16 w1)) + ((p 9 : ℤ) * i16 w2 + (p 13 : ℤ) * i16 w3)),
       i32 (i32 (z + ((p 2 : ℤ) * i16 w0 + (p 6 : ℤ) * i16 w1)) + ((p 10 : ℤ) * i16 w2 + (p 14 : ℤ) * i16 w3)),
       i32 (i32 (t + ((p 3 : ℤ) * i16 w0 + (p 7 : ℤ) * i16 w1)) + ((p 11 : ℤ) * i16 w2 + (p 15 : ℤ) * i16 w3))] := by
  have e1 : shuffle8 ((List.range 16).map p) rgbaShuffleLo =
      [p 0, 0, p 4, 0, p 1, 0, p 5, 0, p 2, 0, p 6, 0, p 3, 0, p 7, 0] := rfl
  have e2 : shuffle8 ((List.range 16).map p) rgbaShuffleHi =
      [p 8, 0, p 12, 0, p 9, 0, p 13, 0, p 10, 0, p 14, 0, p 11, 0, p 15, 0] := rfl
  have e3 : shuffle32 [0, 0, 0, 0] (ofLanes16 [w0, w1, w2, w3] ++ List.replicate 8 0) =
      set1bytes32 (ofLanes16 [w0, w1]) := rfl
  have e4 : shuffle32 [1, 1, 1, 1] (ofLanes16 [w0, w1, w2, w3] ++ List.replicate 8 0) =
      set1bytes32 (ofLanes16 [w2, w3]) := rfl
  rw [e1, e2, e3, e4, dot2 (hp 0) (hp 1) (hp 2) (hp 3) (hp 4) (hp 5) (hp 6) (hp 7),
    dot2 (hp 8) (hp 9) (hp 10) (hp 11) (hp 12) (hp 13) (hp 14) (hp 15)]

theorem bytes32_byte {x : ℕ} (hx : x < 256) : bytes32 (x : ℤ) = [x, 0, 0, 0] := by
  unfold bytes32
  congr 1
  · omega
  congr 1
  · omega
  congr 1
  · omega
  congr 1
  omega

theorem rgbaSse1_core {p : ℕ → ℕ} (hp : ∀ i, p i < 256) (x y z t w : ℤ) :
    add32 (ofLanes32 [x, y, z, t]) (madd16 (cvtepi16epi32 (unpacklo8 ((List.range 4).map p ++
      List.replicate 12 0) setzero)) (set1epi32 w)) = ofLanes32
      [i32 (x + (p 0 : ℤ) * i16 w), i32 (y + (p 1 : ℤ) * i16 w), i32 (z + (p 2 : ℤ) * i16 w),
        i32 (t + (p 3 : ℤ) * i16 w)] := by
  obtain ⟨hh, hw⟩ := lanes_set32 w
  have e1 : cvtepi16epi32 (unpacklo8 ((List.range 4).map p ++ List.replicate 12 0) setzero) =
      [p 0, 0, 0, 0, p 1, 0, 0, 0, p 2, 0, 0, 0, p 3, 0, 0, 0] := by
    show ofLanes32 [i16 _, i16 _, i16 _, i16 _] = _
    rw [i16_byte (hp 0), i16_byte (hp 1), i16_byte (hp 2), i16_byte (hp 3)]
    show bytes32 _ ++ (bytes32 _ ++ (bytes32 _ ++ (bytes32 _ ++ []))) = _
    rw [bytes32_byte (hp 0), bytes32_byte (hp 1), bytes32_byte (hp 2), bytes32_byte (hp 3)]
    rfl
  exact madd_zero _ _ _ _ (hp 0) (hp 1) (hp 2) (hp 3) _ _ _ hw _ _ _ _ _ e1

theorem hAcc_add4 (N : ℕ) (src : List ℕ) (o : ℕ) (w : List ℤ) (b : Bounds) (n c : ℕ) :
    hAcc N src o w b (n + 4) c = i32 (i32 (hAcc N src o w b n c +
      ((pxb N src o b n c : ℤ) * i16 (w.getD n 0) +
        (pxb N src o b (n + 1) c : ℤ) * i16 (w.getD (n + 1) 0))) +
      ((pxb N src o b (n + 2) c : ℤ) * i16 (w.getD (n + 2) 0) +
        (pxb N src o b (n + 3) c : ℤ) * i16 (w.getD (n + 3) 0))) := by
  rw [← hAcc_add2]
  exact hAcc_add2 N src o w b (n + 2) c

theorem rgbaSse2_inv {src offs : List ℕ} {w : List ℤ} {b : Bounds} (h : HPre 4 src offs w b) {jx : ℕ}
    (hj : jx + 2 ≤ b.size) {o : ℕ} (ho : o ∈ offs) {s : Reg} (hs : RgbaInv src w b o jx s) :
    ∃ s', rgbaSse2 src w b jx o s = some s' ∧ RgbaInv src w b o (jx + 2) s' := by
  have hr := h.room ho hj
  have := h.weights
  unfold rgbaSse2 load64
  rw [weightBytes_two (by omega), loadBytes_px0 (by norm_num) (by omega), hs]
  refine ⟨_, rfl, (rgbaSse2_core (fun i => pxb_lt _ _ _ _ _ _) _ _ _ _ _ _).trans ?_⟩
  simp only [hAcc_add2, Nat.reduceDiv, Nat.reduceMod, Nat.add_zero]

theorem rgbaSse4_inv {src offs : List ℕ} {w : List ℤ} {b : Bounds} (h : HPre 4 src offs w b) {jx : ℕ}
    (hj : jx + 4 ≤ b.size) {o : ℕ} (ho : o ∈ offs) {s : Reg} (hs : RgbaInv src w b o jx s) :
    ∃ s', rgbaSse4 src w b jx o s = some s' ∧ RgbaInv src w b o (jx + 4) s' := by
  have hr := h.room ho hj
  have := h.weights
  unfold rgbaSse4 load128
  rw [loadWeights_eq (by omega), loadBytes_px0 (by norm_num) (by omega), hs]
  refine ⟨_, rfl, (rgbaSse4_core (fun i => pxb_lt _ _ _ _ _ _) _ _ _ _ _ _ _ _).trans ?_⟩
  simp only [hAcc_add4, Nat.reduceDiv, Nat.reduceMod, Nat.add_zero]

theorem rgbaSse1_inv {src offs : List ℕ} {w : List ℤ} {b : Bounds} (h : HPre 4 src offs w b) {jx : ℕ}
    (hj : jx + 1 ≤ b.size) {o : ℕ} (ho : o ∈ offs) {s : Reg} (hs : RgbaInv src w b o jx s) :
    ∃ s', rgbaSse1 src w b jx o s = some s' ∧ RgbaInv src w b o (jx + 1) s' := by
  have hr := h.room ho hj
  have := h.weights
  rw [← Nat.add_assoc, Nat.add_mul] at hr
  unfold rgbaSse1 load32
  rw [getElem?_eq_some_getD 0 (by omega), loadBytes_px0 (by norm_num) (by omega), hs]
  refine ⟨_, rfl, (rgbaSse1_core (fun i => pxb_lt _ _ _ _ _ _) _ _ _ _ _).trans ?_⟩
  simp only [hAcc_succ, Nat.reduceDiv, Nat.reduceMod, Nat.add_zero]

/-- The value of an exact handler. -/
def hVal (N : ℕ) (src : List ℕ) (o : ℕ) (w : List ℤ) (b : Bounds) (c : ℕ) : ℕ :=
  packu (hAcc N src o w b b.size c)

theorem rgbaSse_spec {src offs : List ℕ} {w : List ℤ} {b : Bounds} (h : HPre 4 src offs w b) :
    rgbaSse src offs w b = some (offs.map fun o => (List.range 4).map (hVal 4 src o w b)) := by
  have h0 := h.size
  obtain ⟨n1, s1, a1, a2, a3, a4, a5⟩ := rowsLoop_inv (P := RgbaInv src w b) (margin := 4) (step := 4)
    (size := b.size) (jx := 0) (offs := offs) (f := rgbaSse4 src w b)
    (st := offs.map fun _ => set1epi32 ROUNDING_CONST) (by omega) (by omega)
    (fun m hm o ho s hs => rgbaSse4_inv h (by omega) ho hs) (by omega)
    (forall₂_init offs _ fun o _ => rfl)
  obtain ⟨n2, s2, b1, b2, b3, b4, b5⟩ := rowsLoop_inv (P := RgbaInv src w b) (margin := 2) (step := 2)
    (size := b.size) (jx := 0 + n1 * 4) (offs := offs) (f := rgbaSse2 src w b)
    (st := s1) (by omega) (by omega)
    (fun m hm o ho s hs => rgbaSse2_inv h (by omega) ho hs) (by omega) a2
  obtain ⟨n3, s3, c1, c2, c3, c4, c5⟩ := rowsLoop_inv (P := RgbaInv src w b) (margin := 0) (step := 1)
    (size := b.size) (jx := 0 + n1 * 4 + n2 * 2) (offs := offs) (f := rgbaSse1 src w b)
    (st := s2) (by omega) (by omega)
    (fun m hm o ho s hs => rgbaSse1_inv h (by omega) ho hs) (by omega) b2
  unfold rgbaSse
  dsimp only
  rw [a1]
  simp only [Option.bind_eq_bind, Option.bind_some]
  rw [b1]
  simp only [Option.bind_some]
  rw [c1]
  simp only [Option.bind_some]
  congr 1
  refine forall₂_eq c2 fun o _ s hs => ?_
  have e : 0 + n1 * 4 + n2 * 2 + n3 * 1 = b.size := by omega
  rw [e] at hs
  rw [hs, compressI32_of]
  simp only [i32_hAcc]
  rfl

/-! ### `src/sse/rgb_u8.rs` -/

/-- State of one row: the three channels, and a fourth lane nobody stores. -/
def RgbInv (src : List ℕ) (w : List ℤ) (b : Bounds) (o n : ℕ) (s : Reg) : Prop :=
  ∃ z, s = ofLanes32 [hAcc 3 src o w b n 0, hAcc 3 src o w b n 1, hAcc 3 src o w b n 2, z]

theorem loadRgbX2_eq {src : List ℕ} {o : ℕ} {b : Bounds} {jx : ℕ}
    (h : o + (b.start + jx) * 3 + 6 ≤ src.length) :
    loadRgbX2 src (o + (b.start + jx) * 3) = some ((List.range 6).map
      (fun i => pxb 3 src o b (jx + i / 3) (i % 3)) ++ List.replicate 10 0) := by
  unfold loadRgbX2
  rw [loadBytes_px0 (by norm_num) (by omega), loadBytes_px (by norm_num) (by omega)]
  rfl

theorem loadRgbX4_eq {src : List ℕ} {o : ℕ} {b : Bounds} {jx : ℕ}
    (h : o + (b.start + jx) * 3 + 12 ≤ src.length) :
    loadRgbX4 src (o + (b.start + jx) * 3) = some ((List.range 12).map
      (fun i => pxb 3 src o b (jx + i / 3) (i % 3)) ++ List.replicate 4 0) := by
  unfold loadRgbX4
  rw [loadBytes_px0 (by norm_num) (by omega), loadBytes_px (by norm_num) (by omega)]
  rfl

/-- Two pixels of three channels. -/
theorem dot2rgb {p0 p1 p2 q0 q1 q2 : ℕ} (h0 : p0 < 256) (h1 : p1 < 256) (h2 : p2 < 256)
    (h3 : q0 < 256) (h4 : q1 < 256) (h5 : q2 < 256) (x y z t : ℤ) {w0 w1 v6 v7 : ℤ}
    {wr : Reg} (hw : lanes16 wr = [w0, w1, w0, w1, w0, w1, v6, v7]) :
    add32 (ofLanes32 [x, y, z, t])
      (madd16 [p0, 0, q0, 0, p1, 0, q1, 0, p2, 0, q2, 0, 0, 0, 0, 0] wr) = ofLanes32
      [i32 (x + ((p0 : ℤ) * w0 + (q0 : ℤ) * w1)), i32 (y + ((p1 : ℤ) * w0 + (q1 : ℤ) * w1)),
       i32 (z + ((p2 : ℤ) * w0 + (q2 : ℤ) * w1)), i32 t] := by
  rw [madd_add _ _ _ _ _ _ _ _ _ _ _ _ _ _ _ _ _ _ _ _ _ rfl _ _
    (unpack_zero h0 h1 h2 (by norm_num : 0 < 256) _ _ _ 0 h3 h4 h5 (by norm_num)) hw]
  simp only [Nat.cast_zero, zero_mul, add_zero]

theorem rgbSse2_core {p : ℕ → ℕ} (hp : ∀ i, p i < 256) (x y z t w0 w1 : ℤ) :
    add32 (ofLanes32 [x, y, z, t]) (madd16 (shuffle8 ((List.range 6).map p ++ List.replicate 10 0)
      rgbShuffleLo) (set1bytes32 (ofLanes16 [w0, w1]))) = ofLanes32
      [i32 (x + ((p 0 : ℤ) * i16 w0 + (p 3 : ℤ) * i16 w1)),
       i32 (y + ((p 1 : ℤ) * i16 w0 + (p 4 : ℤ) * i16 w1)),
       i32 (z + ((p 2 : ℤ) * i16 w0 + (p 5 : ℤ) * i16 w1)), i32 t] := by
  have e1 : shuffle8 ((List.range 6).map p ++ List.replicate 10 0) rgbShuffleLo =
      [p 0, 0, p 3, 0, p 1, 0, p 4, 0, p 2, 0, p 5, 0, 0, 0, 0, 0] := rfl
  rw [e1, dot2rgb (hp 0) (hp 1) (hp 2) (hp 3) (hp 4) (hp 5) _ _ _ _ (lanes_pair w0 w1)]

theorem rgbSse4_core {p : ℕ → ℕ} (hp : ∀ i, p i < 256) (x y z t w0 w1 w2 w3 : ℤ) :
    add32 (add32 (ofLanes32 [x, y, z, t])
      (madd16 (shuffle8 ((List.range 12).map p ++ List.replicate 4 0) rgbShuffleLo)
      (shuffle32 [0, 0, 0, 0] (ofLanes16 [w0, w1, w2, w3] ++ List.replicate 8 0))))
      (madd16 (shuffle8 ((List.range 12).map p ++ List.replicate 4 0) rgbShuffleHi)
      (shuffle32 [1, 1, 1, 1] (ofLanes16 [w0, w1, w2, w3] ++ List.replicate 8 0))) = ofLanes32
      [i32 (i32 (x + ((p 0 : ℤ) * i16 w0 + (p 3 : ℤ) * i16 w1)) + ((p 6 : ℤ) * i16 w2 + (p 9 : ℤ) * i16 w3)),
       i32 (i32 (y + ((p 1 : ℤ) * i16 w0 + (p 4 : ℤ) * i16 w1)) + ((p 7 : ℤ) * i16 w2 + (p 10 : ℤ) * i16 w3)),
       i32 (i32 (z + ((p 2 : ℤ) * i16 w0 + (p 5 : ℤ) * i16 w1)) + ((p 8 : ℤ) * i16 w2 + (p 11 : ℤ) * i16 w3)),
       i32 (i32 t)] := by
  have e1 : shuffle8 ((List.range 12).map p ++ List.replicate 4 0) rgbShuffleLo =
      [p 0, 0, p 3, 0, p 1, 0, p 4, 0, p 2, 0, p 5, 0, 0, 0, 0, 0] := rfl
  have e2 : shuffle8 ((List.range 12).map p ++ List.replicate 4 0) rgbShuffleHi =
      [p 6, 0, p 9, 0, p 7, 0, p 10, 0, p 8, 0, p 11, 0, 0, 0, 0, 0] := rfl
  have e3 : shuffle32 [0, 0, 0, 0] (ofLanes16 [w0, w1, w2, w3] ++ List.replicate 8 0) =
      set1bytes32 (ofLanes16 [w0, w1]) := rfl
  have e4 : shuffle32 [1, 1, 1, 1] (ofLanes16 [w0, w1, w2, w3] ++ List.replicate 8 0) =
      set1bytes32 (ofLanes16 [w2, w3]) := rfl
  rw [e1, e2, e3, e4, dot2rgb (hp 0) (hp 1) (hp 2) (hp 3) (hp 4) (hp 5) _ _ _ _ (lanes_pair w0 w1),
    dot2rgb (hp 6) (hp 7) (hp 8) (hp 9) (hp 10) (hp 11) _ _ _ _ (lanes_pair w2 w3)]

theorem rgbSse2_inv {src offs : List ℕ} {w : List ℤ} {b : Bounds} (h : HPre 3 src offs w b) {jx : ℕ}
    (hj : jx + 2 ≤ b.size) {o : ℕ} (ho : o ∈ offs) {s : Reg} (hs : RgbInv src w b o jx s) :
    ∃ s', rgbSse2 src w b jx o s = some s' ∧ RgbInv src w b o (jx + 2) s' := by
  have hr := h.room ho hj
  have := h.weights
  obtain ⟨z, hs⟩ := hs
  unfold rgbSse2
  rw [weightBytes_two (by omega), loadRgbX2_eq (by omega), hs]
  refine ⟨_, rfl, i32 z, (rgbSse2_core (fun i => pxb_lt _ _ _ _ _ _) _ _ _ _ _ _).trans ?_⟩
  simp only [hAcc_add2, Nat.reduceDiv, Nat.reduceMod, Nat.add_zero]

theorem rgbSse4_inv {src offs : List ℕ} {w : List ℤ} {b : Bounds} (h : HPre 3 src offs w b) {jx : ℕ}
    (hj : jx + 4 ≤ b.size) {o : ℕ} (ho : o ∈ offs) {s : Reg} (hs : RgbInv src w b o jx s) :
    ∃ s', rgbSse4 src w b jx o s = some s' ∧ RgbInv src w b o (jx + 4) s' := by
  have hr := h.room ho hj
  have := h.weights
  obtain ⟨z, hs⟩ := hs
  unfold rgbSse4
  rw [loadWeights_eq (by omega), loadRgbX4_eq (by omega), hs]
  refine ⟨_, rfl, i32 (i32 z),
    (rgbSse4_core (fun i => pxb_lt _ _ _ _ _ _) _ _ _ _ _ _ _ _).trans ?_⟩
  simp only [hAcc_add4, Nat.reduceDiv, Nat.reduceMod, Nat.add_zero]

theorem rgb1_core {p0 p1 p2 : ℕ} (h0 : p0 < 256) (h1 : p1 < 256) (h2 : p2 < 256) (x y z t w : ℤ) :
    add32 (ofLanes32 [x, y, z, t]) (madd16 (unpacklo16 (unpacklo8 (insert8at2 ([p0, p1] ++
      List.replicate 14 0) p2) setzero) setzero) (set1epi32 w)) =
      ofLanes32 [i32 (x + (p0 : ℤ) * i16 w), i32 (y + (p1 : ℤ) * i16 w), i32 (z + (p2 : ℤ) * i16 w),
        i32 t] := by
  obtain ⟨hh, hw⟩ := lanes_set32 w
  have e : unpacklo16 (unpacklo8 (insert8at2 ([p0, p1] ++ List.replicate 14 0) p2) setzero) setzero =
      [p0, 0, 0, 0, p1, 0, 0, 0, p2, 0, 0, 0, 0, 0, 0, 0] := rfl
  rw [e, madd_zero p0 p1 p2 0 h0 h1 h2 (by norm_num) _ _ _ hw _ _ _ _ _ rfl]
  simp only [Nat.cast_zero, zero_mul, add_zero]

theorem rgbSse1_inv {src offs : List ℕ} {w : List ℤ} {b : Bounds} (h : HPre 3 src offs w b) {jx : ℕ}
    (hj : jx + 1 ≤ b.size) {o : ℕ} (ho : o ∈ offs) {s : Reg} (hs : RgbInv src w b o jx s) :
    ∃ s', rgbSse1 src w b jx o s = some s' ∧ RgbInv src w b o (jx + 1) s' := by
  have hr := h.room ho hj
  have := h.weights
  rw [← Nat.add_assoc, Nat.add_mul] at hr
  obtain ⟨z, hs⟩ := hs
  unfold rgbSse1 load16
  rw [getElem?_eq_some_getD 0 (by omega), loadBytes_px0 (by norm_num) (by omega),
    loadBytes_px (by norm_num) (by omega), hs]
  refine ⟨_, rfl, i32 z, (rgb1_core (pxb_lt _ _ _ _ _ _) (pxb_lt _ _ _ _ _ _) (pxb_lt _ _ _ _ _ _)
    _ _ _ _ _).trans ?_⟩
  simp only [hAcc_succ, Nat.reduceDiv, Nat.reduceMod, Nat.add_zero]

theorem rgbSse_spec {src offs : List ℕ} {w : List ℤ} {b : Bounds} (h : HPre 3 src offs w b) :
    rgbSse src offs w b = some (offs.map fun o => (List.range 3).map (hVal 3 src o w b)) := by
  have h0 := h.size
  obtain ⟨n1, s1, a1, a2, a3, a4, a5⟩ := rowsLoop_inv (P := RgbInv src w b) (margin := 4) (step := 4)
    (size := b.size) (jx := 0) (offs := offs) (f := rgbSse4 src w b)
    (st := offs.map fun _ => set1epi32 ROUNDING_CONST) (by omega) (by omega)
    (fun m hm o ho s hs => rgbSse4_inv h (by omega) ho hs) (by omega)
    (forall₂_init offs _ fun o _ => ⟨_, rfl⟩)
  obtain ⟨n2, s2, b1, b2, b3, b4, b5⟩ := rowsLoop_inv (P := RgbInv src w b) (margin := 2) (step := 2)
    (size := b.size) (jx := 0 + n1 * 4) (offs := offs) (f := rgbSse2 src w b)
    (st := s1) (by omega) (by omega)
    (fun m hm o ho s hs => rgbSse2_inv h (by omega) ho hs) (by omega) a2
  obtain ⟨n3, s3, c1, c2, c3, c4, c5⟩ := rowsLoop_inv (P := RgbInv src w b) (margin := 0) (step := 1)
    (size := b.size) (jx := 0 + n1 * 4 + n2 * 2) (offs := offs) (f := rgbSse1 src w b)
    (st := s2) (by omega) (by omega)
    (fun m hm o ho s hs => rgbSse1_inv h (by omega) ho hs) (by omega) b2
  unfold rgbSse
  dsimp only
  rw [a1]
  simp only [Option.bind_eq_bind, Option.bind_some]
  rw [b1]
  simp only [Option.bind_some]
  rw [c1]
  simp only [Option.bind_some]
  congr 1
  refine forall₂_eq c2 fun o _ s hs => ?_
  have e : 0 + n1 * 4 + n2 * 2 + n3 * 1 = b.size := by omega
  rw [e] at hs
  obtain ⟨z, hs⟩ := hs
  rw [hs, compressI32_of]
  simp only [i32_hAcc]
  rfl

/-! ### `src/avx2/rgb_u8.rs` -/

/-- State of one row while it is 256 bits wide: the halves add up to the three channels. -/
def RgbWideInv (src : List ℕ) (w : List ℤ) (b : Bounds) (o n : ℕ) (s : Reg × Reg) : Prop :=
  ∃ f g : ℕ → ℤ, s = (ofLanes32 [f 0, f 1, f 2, f 3], ofLanes32 [g 0, g 1, g 2, g 3]) ∧
    ∀ c, c < 3 → i32 (f c + g c) = hAcc 3 src o w b n c

/-- The weights of two pixels after `shuffle_weights`. -/
theorem lanes_shufw (w0 w1 : ℤ) (r : Reg) (hr : r = set1bytes32 (ofLanes16 [w0, w1])) :
    lanes16 (shuffle8 r rgbShuffleWeights) =
      [i16 w0, i16 w1, i16 w0, i16 w1, i16 w0, i16 w1, i16 0, i16 0] := by
  rw [hr]
  show lanes16 (ofLanes16 [w0, w1, w0, w1, w0, w1, 0, 0]) = _
  rw [lanes16_ofLanes16]; rfl

theorem fin3 {P : ℕ → Prop} (h0 : P 0) (h1 : P 1) (h2 : P 2) : ∀ c, c < 3 → P c := by
  intro c hc
  have : c = 0 ∨ c = 1 ∨ c = 2 := by omega
  rcases this with rfl | rfl | rfl <;> assumption

theorem i32_wide {f g a x y : ℤ} (h : i32 (f + g) = a) :
    i32 (i32 (f + x) + i32 (g + y)) = i32 (i32 (a + x) + y) := by
  rw [← h]
  simp only [i32_i32_add, i32_add_i32]
  congr 1
  ring

theorem rgbAvx4_core {p : ℕ → ℕ} (hp : ∀ i, p i < 256) (x y z t x' y' z' t' w0 w1 w2 w3 : ℤ) :
    dot16x2 (ofLanes32 [x, y, z, t], ofLanes32 [x', y', z', t'])
      (shuffle8x2 ((List.range 12).map p ++ List.replicate 4 0,
        alignr 6 ((List.range 12).map p ++ List.replicate 4 0)
          ((List.range 12).map p ++ List.replicate 4 0)) rgbShuffleLo)
      (shuffle8x2 (shuffle32 [0, 0, 0, 0] (ofLanes16 [w0, w1, w2, w3] ++ List.replicate 8 0),
        shuffle32 [1, 1, 1, 1] (ofLanes16 [w0, w1, w2, w3] ++ List.replicate 8 0)) rgbShuffleWeights) =
    (ofLanes32 [i32 (x + ((p 0 : ℤ) * i16 w0 + (p 3 : ℤ) * i16 w1)),
       i32 (y + ((p 1 : ℤ) * i16 w0 + (p 4 : ℤ) * i16 w1)),
       i32 (z + ((p 2 : ℤ) * i16 w0 + (p 5 : ℤ) * i16 w1)), i32 t],
     ofLanes32 [i32 (x' + ((p 6 : ℤ) * i16 w2 + (p 9 : ℤ) * i16 w3)),
       i32 (y' + ((p 7 : ℤ) * i16 w2 + (p 10 : ℤ) * i16 w3)),
       i32 (z' + ((p 8 : ℤ) * i16 w2 + (p 11 : ℤ) * i16 w3)), i32 t']) := by
  unfold dot16x2 shuffle8x2
  dsimp only
  have e1 : shuffle8 ((List.range 12).map p ++ List.replicate 4 0) rgbShuffleLo =
      [p 0, 0, p 3, 0, p 1, 0, p 4, 0, p 2, 0, p 5, 0, 0, 0, 0, 0] := rfl
  have e2 : shuffle8 (alignr 6 ((List.range 12).map p ++ List.replicate 4 0)
      ((List.range 12).map p ++ List.replicate 4 0)) rgbShuffleLo =
      [p 6, 0, p 9, 0, p 7, 0, p 10, 0, p 8, 0, p 11, 0, 0, 0, 0, 0] := rfl
  have e3 : shuffle32 [0, 0, 0, 0] (ofLanes16 [w0, w1, w2, w3] ++ List.replicate 8 0) =
      set1bytes32 (ofLanes16 [w0, w1]) := rfl
  have e4 : shuffle32 [1, 1, 1, 1] (ofLanes16 [w0, w1, w2, w3] ++ List.replicate 8 0) =
      set1bytes32 (ofLanes16 [w2, w3]) := rfl
  rw [e1, e2, e3, e4,
    dot2rgb (hp 0) (hp 1) (hp 2) (hp 3) (hp 4) (hp 5) _ _ _ _ (lanes_shufw w0 w1 _ rfl),
    dot2rgb (hp 6) (hp 7) (hp 8) (hp 9) (hp 10) (hp 11) _ _ _ _ (lanes_shufw w2 w3 _ rfl)]

theorem rgbAvx8_core {p : ℕ → ℕ} (hp : ∀ i, p i < 256) (x y z t x' y' z' t' w0 w1 w2 w3 w4 w5 w6 w7 : ℤ)
    (lo hi full : Reg) (hlo : lo = (List.range 16).map p)
    (hhi : hi = (List.range 8).map (fun i => p (16 + i)) ++ List.replicate 8 0)
    (hfull : full = ofLanes16 [w0, w1, w2, w3, w4, w5, w6, w7]) :
    dot16x2 (dot16x2 (ofLanes32 [x, y, z, t], ofLanes32 [x', y', z', t'])
      (shuffle8x2 (lo, alignr 6 lo lo) rgbShuffleLo)
      (shuffle8x2 (shuffle32 [0, 0, 0, 0] full, shuffle32 [1, 1, 1, 1] full) rgbShuffleWeights))
      (shuffle8x2 (alignr 12 hi lo, alignr 2 hi hi) rgbShuffleLo)
      (shuffle8x2 (shuffle32 [2, 2, 2, 2] full, shuffle32 [3, 3, 3, 3] full) rgbShuffleWeights) =
    (ofLanes32 [
       i32 (i32 (x + ((p 0 : ℤ) * i16 w0 + (p 3 : ℤ) * i16 w1)) + ((p 12 : ℤ) * i16 w4 + (p 15 : ℤ) * i16 w5)),
       i32 (i32 (y + ((p 1 : ℤ) * i16 w0 + (p 4 : ℤ) * i16 w1)) + ((p 13 : ℤ) * i16 w4 + (p 16 : ℤ) * i16 w5)),
       i32 (i32 (z + ((p 2 : ℤ) * i16 w0 + (p 5 : ℤ) * i16 w1)) + ((p 14 : ℤ) * i16 w4 + (p 17 : ℤ) * i16 w5)),
       i32 (i32 t)],
     ofLanes32 [
       i32 (i32 (x' + ((p 6 : ℤ) * i16 w2 + (p 9 : ℤ) * i16 w3)) + ((p 18 : ℤ) * i16 w6 + (p 21 : ℤ) * i16 w7)),
       i32 (i32 (y' + ((p 7 : ℤ) * i16 w2 + (p 10 : ℤ) * i16 w3)) + ((p 19 : ℤ) * i16 w6 + (p 22 : ℤ) * i16 w7)),
       i32 (i32 (z' + ((p 8 : ℤ) * i16 w2 + (p 11 : ℤ) * i16 w3)) + ((p 20 : ℤ) * i16 w6 + (p 23 : ℤ) * i16 w7)),
       i32 (i32 t')]) := by
  subst hlo hhi hfull
  unfold dot16x2 shuffle8x2
  dsimp only
  have e1 : shuffle8 ((List.range 16).map p) rgbShuffleLo =
      [p 0, 0, p 3, 0, p 1, 0, p 4, 0, p 2, 0, p 5, 0, 0, 0, 0, 0] := rfl
  have e2 : shuffle8 (alignr 6 ((List.range 16).map p) ((List.range 16).map p)) rgbShuffleLo =
      [p 6, 0, p 9, 0, p 7, 0, p 10, 0, p 8, 0, p 11, 0, 0, 0, 0, 0] := rfl
  have e3 : shuffle8 (alignr 12 ((List.range 8).map (fun i => p (16 + i)) ++ List.replicate 8 0)
      ((List.range 16).map p)) rgbShuffleLo =
      [p 12, 0, p 15, 0, p 13, 0, p 16, 0, p 14, 0, p 17, 0, 0, 0, 0, 0] := rfl
  have e4 : shuffle8 (alignr 2 ((List.range 8).map (fun i => p (16 + i)) ++ List.replicate 8 0)
      ((List.range 8).map (fun i => p (16 + i)) ++ List.replicate 8 0)) rgbShuffleLo =
      [p 18, 0, p 21, 0, p 19, 0, p 22, 0, p 20, 0, p 23, 0, 0, 0, 0, 0] := rfl
  have f1 : shuffle32 [0, 0, 0, 0] (ofLanes16 [w0, w1, w2, w3, w4, w5, w6, w7]) =
      set1bytes32 (ofLanes16 [w0, w1]) := rfl
  have f2 : shuffle32 [1, 1, 1, 1] (ofLanes16 [w0, w1, w2, w3, w4, w5, w6, w7]) =
      set1bytes32 (ofLanes16 [w2, w3]) := rfl
  have f3 : shuffle32 [2, 2, 2, 2] (ofLanes16 [w0, w1, w2, w3, w4, w5, w6, w7]) =
      set1bytes32 (ofLanes16 [w4, w5]) := rfl
  have f4 : shuffle32 [3, 3, 3, 3] (ofLanes16 [w0, w1, w2, w3, w4, w5, w6, w7]) =
      set1bytes32 (ofLanes16 [w6, w7]) := rfl
  rw [e1, e2, e3, e4, f1, f2, f3, f4,
    dot2rgb (hp 0) (hp 1) (hp 2) (hp 3) (hp 4) (hp 5) _ _ _ _ (lanes_shufw w0 w1 _ rfl),
    dot2rgb (hp 6) (hp 7) (hp 8) (hp 9) (hp 10) (hp 11) _ _ _ _ (lanes_shufw w2 w3 _ rfl),
    dot2rgb (hp 12) (hp 13) (hp 14) (hp 15) (hp 16) (hp 17) _ _ _ _ (lanes_shufw w4 w5 _ rfl),
    dot2rgb (hp 18) (hp 19) (hp 20) (hp 21) (hp 22) (hp 23) _ _ _ _ (lanes_shufw w6 w7 _ rfl)]

theorem rgbAvx4_inv {src offs : List ℕ} {w : List ℤ} {b : Bounds} (h : HPre 3 src offs w b) {jx : ℕ}
    (hj : jx + 4 ≤ b.size) {o : ℕ} (ho : o ∈ offs) {s : Reg × Reg}
    (hs : RgbWideInv src w b o jx s) :
    ∃ s', rgbAvx4 src w b jx o s = some s' ∧ RgbWideInv src w b o (jx + 4) s' := by
  have hr := h.room ho hj
  have := h.weights
  obtain ⟨f, g, hs, hfg⟩ := hs
  unfold rgbAvx4
  rw [loadWeights_eq (by omega), loadRgbX4_eq (by omega), hs]
  let F : ℕ → ℤ := fun c => if c = 3 then i32 (f 3) else
    i32 (f c + ((pxb 3 src o b jx c : ℤ) * i16 (w.getD jx 0) +
      (pxb 3 src o b (jx + 1) c : ℤ) * i16 (w.getD (jx + 1) 0)))
  let G : ℕ → ℤ := fun c => if c = 3 then i32 (g 3) else
    i32 (g c + ((pxb 3 src o b (jx + 2) c : ℤ) * i16 (w.getD (jx + 2) 0) +
      (pxb 3 src o b (jx + 3) c : ℤ) * i16 (w.getD (jx + 3) 0)))
  refine ⟨_, rfl, F, G,
    (rgbAvx4_core (fun i => pxb_lt _ _ _ _ _ _) _ _ _ _ _ _ _ _ _ _ _ _).trans ?_, ?_⟩
  · simp only [F, G, Nat.reduceDiv, Nat.reduceMod, Nat.add_zero, if_true, Nat.reduceEqDiff, if_false,
      OfNat.one_ne_ofNat, OfNat.zero_ne_ofNat]
  intro c hc
  rw [hAcc_add4]
  simp only [F, G, if_neg (show c ≠ 3 by omega)]
  rw [i32_wide (hfg c hc)]

theorem rgbAvx8_inv {src offs : List ℕ} {w : List ℤ} {b : Bounds} (h : HPre 3 src offs w b) {jx : ℕ}
    (hj : jx + 8 ≤ b.size) {o : ℕ} (ho : o ∈ offs) {s : Reg × Reg}
    (hs : RgbWideInv src w b o jx s) :
    ∃ s', rgbAvx8 src w b jx o s = some s' ∧ RgbWideInv src w b o (jx + 8) s' := by
  have hr := h.room ho hj
  have := h.weights
  obtain ⟨f, g, hs, hfg⟩ := hs
  unfold rgbAvx8 load128 load64
  rw [loadWeights_eq (by omega), loadBytes_px0 (by norm_num) (by omega),
    loadBytes_px (by norm_num) (by omega), hs]
  let T : ℕ → ℕ → ℤ := fun k c => (pxb 3 src o b (jx + k) c : ℤ) * i16 (w.getD (jx + k) 0) +
      (pxb 3 src o b (jx + (k + 1)) c : ℤ) * i16 (w.getD (jx + (k + 1)) 0)
  let F : ℕ → ℤ := fun c => if c = 3 then i32 (i32 (f 3)) else i32 (i32 (f c + T 0 c) + T 4 c)
  let G : ℕ → ℤ := fun c => if c = 3 then i32 (i32 (g 3)) else i32 (i32 (g c + T 2 c) + T 6 c)
  refine ⟨_, rfl, F, G, (rgbAvx8_core (p := fun i => pxb 3 src o b (jx + i / 3) (i % 3))
    (fun i => pxb_lt _ _ _ _ _ _) _ _ _ _ _ _ _ _ (w.getD jx 0)
    (w.getD (jx + 1) 0) (w.getD (jx + 2) 0) (w.getD (jx + 3) 0) (w.getD (jx + 4) 0)
    (w.getD (jx + 5) 0) (w.getD (jx + 6) 0) (w.getD (jx + 7) 0) _ _ _ rfl rfl ?_).trans ?_, ?_⟩
  · rfl
  · simp only [F, G, T, Nat.reduceDiv, Nat.reduceMod, Nat.add_zero, if_true, Nat.reduceEqDiff, if_false,
      OfNat.one_ne_ofNat, OfNat.zero_ne_ofNat, Nat.reduceAdd]
  intro c hc
  have e1 : hAcc 3 src o w b (jx + 8) c = _ := hAcc_add4 3 src o w b (jx + 4) c
  rw [e1, hAcc_add4, ← hfg c hc]
  simp only [F, G, if_neg (show c ≠ 3 by omega), i32_i32_add, i32_add_i32, T, Nat.add_zero,
    Nat.add_assoc, Nat.reduceAdd]
  congr 1
  ring

/-- Byte read for channel `c` of tap `k` by the AVX2 RGB handlers, whose last one or two taps take
channels 0 and 1 from the beginning of the row. -/
def avxRgbByte (src : List ℕ) (o : ℕ) (b : Bounds) (k c : ℕ) : ℕ :=
  if 2 * ((b.size - 1) / 2) ≤ k ∧ c < 2 then src.getD (o + c) 0 % 256 else pxb 3 src o b k c

theorem avxRgbByte_lt (src : List ℕ) (o : ℕ) (b : Bounds) (k c : ℕ) : avxRgbByte src o b k c < 256 := by
  unfold avxRgbByte
  split
  · exact Nat.mod_lt _ (by norm_num)
  · exact pxb_lt _ _ _ _ _ _

/-- Accumulator of the AVX2 RGB handlers. -/
def rgbAvxAcc (src : List ℕ) (o : ℕ) (w : List ℤ) (b : Bounds) (n c : ℕ) : ℤ :=
  i32 (16384 + Spec.wsum n (fun k => i16 (w.getD k 0)) (fun k => (avxRgbByte src o b k c : ℤ)))

theorem rgbAvxAcc_succ (src : List ℕ) (o : ℕ) (w : List ℤ) (b : Bounds) (n c : ℕ) :
    rgbAvxAcc src o w b (n + 1) c =
      i32 (rgbAvxAcc src o w b n c + (avxRgbByte src o b n c : ℤ) * i16 (w.getD n 0)) := by
  unfold rgbAvxAcc
  rw [i32_i32_add]
  simp only [Spec.wsum, sum_range_succ]
  congr 1
  ring

/-- Before the last taps the accumulators agree. -/
theorem rgbAvxAcc_eq (src : List ℕ) (o : ℕ) (w : List ℤ) (b : Bounds) {n : ℕ} (c : ℕ)
    (hn : n ≤ 2 * ((b.size - 1) / 2)) : rgbAvxAcc src o w b n c = hAcc 3 src o w b n c := by
  unfold rgbAvxAcc hAcc
  congr 2
  apply Finset.sum_congr rfl
  intro k hk
  have : k < n := by simpa using hk
  dsimp only
  unfold avxRgbByte
  rw [if_neg (by omega)]

/-- State of one row in the last loop. -/
def RgbAvxInv (src : List ℕ) (w : List ℤ) (b : Bounds) (o n : ℕ) (s : Reg) : Prop :=
  ∃ z, s = ofLanes32 [rgbAvxAcc src o w b n 0, rgbAvxAcc src o w b n 1, rgbAvxAcc src o w b n 2, z]

theorem rgbAvx1_inv {src offs : List ℕ} {w : List ℤ} {b : Bounds} (h : HPre 3 src offs w b) {jx : ℕ}
    (hj : jx + 1 ≤ b.size) (hj2 : 2 * ((b.size - 1) / 2) ≤ jx) {o : ℕ} (ho : o ∈ offs) {s : Reg}
    (hs : RgbAvxInv src w b o jx s) :
    ∃ s', rgbAvx1 src w b jx o s = some s' ∧ RgbAvxInv src w b o (jx + 1) s' := by
  have hr := h.room ho hj
  have hl : ∀ k c, avxRgbByte src o b k c < 256 := avxRgbByte_lt src o b
  rw [← Nat.add_assoc, Nat.add_mul] at hr
  have hz : 0 ≤ (b.start + jx) * 3 := Nat.zero_le _
  unfold rgbAvx1 load16
  rw [getElem?_eq_some_getD 0 (by have := h.weights; omega),
    loadBytes_eq (by omega), loadBytes_px (by norm_num) (by omega)]
  refine ⟨_, rfl, ?_⟩
  obtain ⟨z, hs⟩ := hs
  refine ⟨i32 z, ?_⟩
  rw [hs]
  have e0 : avxRgbByte src o b jx 0 = src.getD (o + 0) 0 % 256 := by
    unfold avxRgbByte; rw [if_pos ⟨hj2, by norm_num⟩]
  have e1 : avxRgbByte src o b jx 1 = src.getD (o + 1) 0 % 256 := by
    unfold avxRgbByte; rw [if_pos ⟨hj2, by norm_num⟩]
  have e2 : avxRgbByte src o b jx 2 = pxb 3 src o b jx 2 := by
    unfold avxRgbByte; rw [if_neg (by omega)]
  rw [rgbAvxAcc_succ, rgbAvxAcc_succ, rgbAvxAcc_succ, e0, e1, e2]
  refine (rgb1_core (Nat.mod_lt _ (by norm_num)) (Nat.mod_lt _ (by norm_num)) (pxb_lt _ _ _ _ _ _)
    _ _ _ _ _).trans ?_
  simp only [Nat.reduceDiv, Nat.reduceMod, Nat.add_zero]

/-- The value of the AVX2 RGB handlers. -/
def rgbAvxVal (src : List ℕ) (o : ℕ) (w : List ℤ) (b : Bounds) (c : ℕ) : ℕ :=
  packu (rgbAvxAcc src o w b b.size c)

theorem rgbAvxWide_spec {src offs : List ℕ} {w : List ℤ} {b : Bounds} (h : HPre 3 src offs w b) :
    ∃ n st, rgbAvxWide src offs w b = some (4 * n, st) ∧ 4 * n < b.size ∧
      List.Forall₂ (fun o s => RgbInv src w b o (4 * n) s) offs st := by
  have h0 := h.size
  unfold rgbAvxWide
  by_cases hb : b.size > 4
  · rw [if_pos hb]
    obtain ⟨n1, s1, a1, a2, a3, a4, a5⟩ := rowsLoop_inv (P := RgbWideInv src w b) (margin := 8)
      (step := 8) (size := b.size) (jx := 0) (offs := offs) (f := rgbAvx8 src w b)
      (st := offs.map fun _ => (setr32 [ROUNDING_CONST, ROUNDING_CONST, ROUNDING_CONST, 0], setzero))
      (by omega) (by omega) (fun m hm o ho s hs => rgbAvx8_inv h (by omega) ho hs) (by omega)
      (forall₂_init offs _ fun o _ => ⟨fun c => if c < 3 then 16384 else 0, fun _ => 0, rfl, by
        intro c hc
        simp only [if_pos hc]
        rfl⟩)
    obtain ⟨n2, s2, b1, b2, b3, b4, b5⟩ := rowsLoop_inv (P := RgbWideInv src w b) (margin := 4)
      (step := 4) (size := b.size) (jx := 0 + n1 * 8) (offs := offs) (f := rgbAvx4 src w b)
      (st := s1) (by omega) (by omega)
      (fun m hm o ho s hs => rgbAvx4_inv h (by omega) ho hs) (by omega) a2
    refine ⟨2 * n1 + n2, s2.map fun s => add32 s.1 s.2, ?_, by omega, ?_⟩
    · dsimp only
      rw [a1]
      simp only [Option.bind_eq_bind, Option.bind_some]
      rw [b1]
      simp only [Option.bind_some]
      congr 2
      omega
    · refine forall₂_map b2 fun o _ s hs => ?_
      obtain ⟨f, g, hs, hfg⟩ := hs
      refine ⟨i32 (f 3 + g 3), ?_⟩
      have e : 4 * (2 * n1 + n2) = 0 + n1 * 8 + n2 * 4 := by omega
      rw [e, hs, ← hfg 0 (by omega), ← hfg 1 (by omega), ← hfg 2 (by omega)]
      unfold add32
      simp only [lanes32_ofLanes32, List.map_cons, List.map_nil, List.zipWith_cons_cons,
        List.zipWith_nil_left, i32_i32_add, i32_add_i32]
  · rw [if_neg hb]
    exact ⟨0, _, rfl, by omega, forall₂_init offs _ fun o _ => ⟨_, rfl⟩⟩

theorem rgbAvx_spec {src offs : List ℕ} {w : List ℤ} {b : Bounds} (h : HPre 3 src offs w b) :
    rgbAvx src offs w b = some (offs.map fun o => (List.range 3).map (rgbAvxVal src o w b)) := by
  obtain ⟨n, st, w1, w2, w3⟩ := rgbAvxWide_spec h
  obtain ⟨n2, s2, b1, b2, b3, b4, b5⟩ := rowsLoop_inv (P := RgbInv src w b) (margin := 2) (step := 2)
    (size := b.size) (jx := 4 * n) (offs := offs) (f := rgbSse2 src w b)
    (st := st) (by omega) (by omega)
    (fun m hm o ho s hs => rgbSse2_inv h (by omega) ho hs) (by omega) w3
  have hlast : 4 * n + n2 * 2 = 2 * ((b.size - 1) / 2) := by omega
  obtain ⟨n3, s3, c1, c2, c3, c4, c5⟩ := rowsLoop_inv (P := RgbAvxInv src w b) (margin := 0) (step := 1)
    (size := b.size) (jx := 4 * n + n2 * 2) (offs := offs) (f := rgbAvx1 src w b)
    (st := s2) (by omega) (by omega)
    (fun m hm o ho s hs => rgbAvx1_inv h (by omega) (by omega) ho hs) (by omega)
    (b2.imp fun o s hs => by
      obtain ⟨z, hs⟩ := hs
      refine ⟨z, ?_⟩
      rw [hs, rgbAvxAcc_eq _ _ _ _ _ (by omega), rgbAvxAcc_eq _ _ _ _ _ (by omega),
        rgbAvxAcc_eq _ _ _ _ _ (by omega)])
  unfold rgbAvx
  rw [w1]
  simp only [Option.bind_eq_bind, Option.bind_some]
  rw [b1]
  simp only [Option.bind_some]
  rw [c1]
  simp only [Option.bind_some]
  congr 1
  refine forall₂_eq c2 fun o _ s hs => ?_
  have e : 4 * n + n2 * 2 + n3 * 1 = b.size := by omega
  rw [e] at hs
  obtain ⟨z, hs⟩ := hs
  have e2 : ∀ c, i32 (rgbAvxAcc src o w b b.size c) = rgbAvxAcc src o w b b.size c := fun c => by
    unfold rgbAvxAcc; exact i32_i32 _
  rw [hs, compressI32_of]
  simp only [e2]
  rfl

/-! ### `src/sse/plane_u8.rs` -/

/-- State of one row: the four lanes add up to the accumulator. -/
def PlaneInv (src : List ℕ) (w : List ℤ) (b : Bounds) (o n : ℕ) (s : Reg) : Prop :=
  ∃ x y z t, s = ofLanes32 [x, y, z, t] ∧ i32 (x + y + z + t) = hAcc 1 src o w b n 0

theorem lanes16_ofLanes32 (x y z t : ℤ) : lanes16 (ofLanes32 [x, y, z, t]) =
    [i16 x, i16 (x / 65536), i16 y, i16 (y / 65536), i16 z, i16 (z / 65536), i16 t,
      i16 (t / 65536)] := by
  have e : ∀ v : ℤ, i16 (((v / 65536 % 256).toNat : ℤ) + 256 * ((v / 16777216 % 256).toNat : ℤ)) =
      i16 (v / 65536) := fun v => by
    apply i16_congr; omega
  show [i16 _, i16 _, i16 _, i16 _, i16 _, i16 _, i16 _, i16 _] = _
  simp only [i16_bytes, e]

/-- Four samples, each in its own 32-bit lane, times four weights. -/
theorem dot4 {p0 p1 p2 p3 : ℕ} (h0 : p0 < 256) (h1 : p1 < 256) (h2 : p2 < 256)
    (h3 : p3 < 256) (x y z t : ℤ) {w0 w1 w2 w3 a b c d : ℤ} {wr : Reg}
    (hw : lanes16 wr = [w0, a, w1, b, w2, c, w3, d]) :
    add32 (ofLanes32 [x, y, z, t])
      (madd16 [p0, 0, 0, 0, p1, 0, 0, 0, p2, 0, 0, 0, p3, 0, 0, 0] wr) = ofLanes32
      [i32 (x + (p0 : ℤ) * w0), i32 (y + (p1 : ℤ) * w1), i32 (z + (p2 : ℤ) * w2),
       i32 (t + (p3 : ℤ) * w3)] := by
  rw [madd_add _ _ _ _ _ _ _ _ _ _ _ _ _ _ _ _ _ _ _ _ _ rfl _ _
    (unpack_zero h0 h1 h2 h3 0 0 0 0 (by norm_num) (by norm_num) (by norm_num) (by norm_num)) hw]
  simp only [Nat.cast_zero, zero_mul, add_zero]

theorem planeSse8_core {p : ℕ → ℕ} (hp : ∀ i, p i < 256) (x y z t w0 w1 w2 w3 w4 w5 w6 w7 : ℤ)
    (px ws : Reg) (hpx : px = (List.range 8).map p ++ List.replicate 8 0)
    (hws : ws = ofLanes16 [w0, w1, w2, w3, w4, w5, w6, w7]) :
    add32 (add32 (ofLanes32 [x, y, z, t]) (madd16 (unpacklo16 (unpacklo8 px setzero) setzero)
      (unpacklo16 ws setzero))) (madd16 (unpackhi16 (unpacklo8 px setzero) setzero)
      (unpackhi16 ws setzero)) = ofLanes32
      [i32 (i32 (x + (p 0 : ℤ) * i16 w0) + (p 4 : ℤ) * i16 w4),
       i32 (i32 (y + (p 1 : ℤ) * i16 w1) + (p 5 : ℤ) * i16 w5),
       i32 (i32 (z + (p 2 : ℤ) * i16 w2) + (p 6 : ℤ) * i16 w6),
       i32 (i32 (t + (p 3 : ℤ) * i16 w3) + (p 7 : ℤ) * i16 w7)] := by
  subst hpx hws
  have e1 : unpacklo16 (unpacklo8 ((List.range 8).map p ++ List.replicate 8 0) setzero) setzero =
      [p 0, 0, 0, 0, p 1, 0, 0, 0, p 2, 0, 0, 0, p 3, 0, 0, 0] := rfl
  have e2 : unpackhi16 (unpacklo8 ((List.range 8).map p ++ List.replicate 8 0) setzero) setzero =
      [p 4, 0, 0, 0, p 5, 0, 0, 0, p 6, 0, 0, 0, p 7, 0, 0, 0] := rfl
  have f1 : unpacklo16 (ofLanes16 [w0, w1, w2, w3, w4, w5, w6, w7]) setzero =
      ofLanes16 [w0, 0, w1, 0, w2, 0, w3, 0] := rfl
  have f2 : unpackhi16 (ofLanes16 [w0, w1, w2, w3, w4, w5, w6, w7]) setzero =
      ofLanes16 [w4, 0, w5, 0, w6, 0, w7, 0] := rfl
  rw [e1, e2, f1, f2, dot4 (hp 0) (hp 1) (hp 2) (hp 3) _ _ _ _ (lanes16_ofLanes16 _),
    dot4 (hp 4) (hp 5) (hp 6) (hp 7) _ _ _ _ (lanes16_ofLanes16 _)]

theorem planeSse4_core {p : ℕ → ℕ} (hp : ∀ i, p i < 256) (x y z t w0 w1 w2 w3 : ℤ)
    (px ws : Reg) (hpx : px = (List.range 4).map p ++ List.replicate 12 0)
    (hws : ws = ofLanes16 [w0, w1, w2, w3] ++ List.replicate 8 0) :
    add32 (ofLanes32 [x, y, z, t]) (madd16 (unpacklo16 (unpacklo8 px setzero) setzero)
      (cvtepi16epi32 ws)) = ofLanes32
      [i32 (x + (p 0 : ℤ) * i16 w0), i32 (y + (p 1 : ℤ) * i16 w1),
       i32 (z + (p 2 : ℤ) * i16 w2), i32 (t + (p 3 : ℤ) * i16 w3)] := by
  subst hpx hws
  have e1 : unpacklo16 (unpacklo8 ((List.range 4).map p ++ List.replicate 12 0) setzero) setzero =
      [p 0, 0, 0, 0, p 1, 0, 0, 0, p 2, 0, 0, 0, p 3, 0, 0, 0] := rfl
  have f0 : ofLanes16 [w0, w1, w2, w3] ++ List.replicate 8 0 = ofLanes16 [w0, w1, w2, w3, 0, 0, 0, 0] :=
    rfl
  have f1 : cvtepi16epi32 (ofLanes16 [w0, w1, w2, w3, 0, 0, 0, 0]) =
      ofLanes32 [i16 w0, i16 w1, i16 w2, i16 w3] := by
    unfold cvtepi16epi32
    rw [lanes16_ofLanes16]
    rfl
  rw [e1, f0, f1, dot4 (hp 0) (hp 1) (hp 2) (hp 3) _ _ _ _ (lanes16_ofLanes32 _ _ _ _)]
  simp only [i16_i16]

theorem planeSse1_core {p : ℕ} (hp : p < 256) (x y z t w : ℤ) :
    add32 (ofLanes32 [x, y, z, t]) (madd16 (setr32 [(p : ℤ), 0, 0, 0]) (setr32 [w, 0, 0, 0])) =
      ofLanes32 [i32 (x + (p : ℤ) * i16 w), i32 y, i32 z, i32 t] := by
  have e1 : setr32 [(p : ℤ), 0, 0, 0] = [p, 0, 0, 0, 0, 0, 0, 0, 0, 0, 0, 0, 0, 0, 0, 0] := by
    show bytes32 (p : ℤ) ++ _ = _
    rw [bytes32_byte hp]
    rfl
  rw [e1, show setr32 [w, 0, 0, 0] = ofLanes32 [w, 0, 0, 0] from rfl,
    dot4 hp (by norm_num : 0 < 256) (by norm_num : 0 < 256) (by norm_num : 0 < 256) _ _ _ _
      (lanes16_ofLanes32 _ _ _ _)]
  simp only [Nat.cast_zero, zero_mul, add_zero]

theorem i32_emod (v : ℤ) : i32 v % 4294967296 = v % 4294967296 := by
  unfold i32
  rw [Int.bmod_def]
  push_cast
  split <;> omega

theorem i32_sum4 (a b c d : ℤ) : i32 (i32 a + i32 b + i32 c + i32 d) = i32 (a + b + c + d) := by
  have ha := i32_emod a
  have hb := i32_emod b
  have hc := i32_emod c
  have hd := i32_emod d
  apply i32_congr
  omega

theorem planeSse8_inv {src offs : List ℕ} {w : List ℤ} {b : Bounds} (h : HPre 1 src offs w b) {jx : ℕ}
    (hj : jx + 8 ≤ b.size) {o : ℕ} (ho : o ∈ offs) {s : Reg} (hs : PlaneInv src w b o jx s) :
    ∃ s', planeSse8 src w b jx o s = some s' ∧ PlaneInv src w b o (jx + 8) s' := by
  have hr := h.room ho hj
  have := h.weights
  obtain ⟨x, y, z, t, hs, he⟩ := hs
  unfold planeSse8 load64
  have hl := loadBytes_px0 (N := 1) (by norm_num) (src := src) (o := o) (b := b) (jx := jx) (n := 8)
    (by omega)
  rw [Nat.mul_one] at hl
  rw [loadWeights_eq (by omega), hl, hs]
  refine ⟨_, rfl, _, _, _, _, planeSse8_core (p := fun i => pxb 1 src o b (jx + i / 1) (i % 1))
    (fun i => pxb_lt _ _ _ _ _ _) _ _ _ _ (w.getD jx 0)
    (w.getD (jx + 1) 0) (w.getD (jx + 2) 0) (w.getD (jx + 3) 0) (w.getD (jx + 4) 0)
    (w.getD (jx + 5) 0) (w.getD (jx + 6) 0) (w.getD (jx + 7) 0) _ _ rfl rfl, ?_⟩
  have e1 : hAcc 1 src o w b (jx + 8) 0 = _ := hAcc_add4 1 src o w b (jx + 4) 0
  rw [e1, hAcc_add4, ← he]
  rw [i32_sum4]
  have e3 : ∀ a b c d a' b' c' d' : ℤ, i32 (i32 a + a' + (i32 b + b') + (i32 c + c') + (i32 d + d')) =
      i32 (a + a' + (b + b') + (c + c') + (d + d')) := fun a b c d a' b' c' d' => by
    have ha := i32_emod a
    have hb := i32_emod b
    have hc := i32_emod c
    have hd := i32_emod d
    apply i32_congr
    omega
  rw [e3]
  simp only [Nat.reduceDiv, Nat.reduceMod, Nat.add_zero, i32_i32_add, Nat.add_assoc, Nat.reduceAdd]
  congr 1
  ring

theorem planeSse4_inv {src offs : List ℕ} {w : List ℤ} {b : Bounds} (h : HPre 1 src offs w b) {jx : ℕ}
    (hj : jx + 4 ≤ b.size) {o : ℕ} (ho : o ∈ offs) {s : Reg} (hs : PlaneInv src w b o jx s) :
    ∃ s', planeSse4 src w b jx o s = some s' ∧ PlaneInv src w b o (jx + 4) s' := by
  have hr := h.room ho hj
  have := h.weights
  obtain ⟨x, y, z, t, hs, he⟩ := hs
  unfold planeSse4 load32
  have hl := loadBytes_px0 (N := 1) (by norm_num) (src := src) (o := o) (b := b) (jx := jx) (n := 4)
    (by omega)
  rw [Nat.mul_one] at hl
  rw [loadWeights_eq (by omega), hl, hs]
  refine ⟨_, rfl, _, _, _, _, planeSse4_core (p := fun i => pxb 1 src o b (jx + i / 1) (i % 1))
    (fun i => pxb_lt _ _ _ _ _ _) _ _ _ _ (w.getD jx 0)
    (w.getD (jx + 1) 0) (w.getD (jx + 2) 0) (w.getD (jx + 3) 0) _ _ rfl rfl, ?_⟩
  rw [hAcc_add4, ← he, i32_sum4]
  simp only [Nat.reduceDiv, Nat.reduceMod, Nat.add_zero, i32_i32_add]
  congr 1
  ring

theorem planeSse1_inv {src offs : List ℕ} {w : List ℤ} {b : Bounds} (h : HPre 1 src offs w b) {jx : ℕ}
    (hj : jx + 1 ≤ b.size) {o : ℕ} (ho : o ∈ offs) {s : Reg} (hs : PlaneInv src w b o jx s) :
    ∃ s', planeSse1 src w b jx o s = some s' ∧ PlaneInv src w b o (jx + 1) s' := by
  have hr := h.room ho hj
  have := h.weights
  obtain ⟨x, y, z, t, hs, he⟩ := hs
  unfold planeSse1
  have hl := loadBytes_px0 (N := 1) (by norm_num) (src := src) (o := o) (b := b) (jx := jx) (n := 1)
    (by omega)
  rw [Nat.mul_one] at hl
  rw [getElem?_eq_some_getD 0 (by omega), hl, hs]
  refine ⟨_, rfl, _, _, _, _, planeSse1_core (pxb_lt _ _ _ _ _ _) _ _ _ _ _, ?_⟩
  rw [hAcc_succ, ← he, i32_sum4]
  simp only [Nat.reduceDiv, Nat.reduceMod, Nat.add_zero, i32_i32_add]
  congr 1
  ring

theorem planeFinish_of (x y z t : ℤ) :
    planeFinish (ofLanes32 [x, y, z, t]) = [packu (i32 (x + y + z + t))] := by
  unfold planeFinish
  have e1 : shuffle32 [2, 3, 0, 1] (ofLanes32 [x, y, z, t]) = ofLanes32 [z, t, x, y] := rfl
  have e2 : add32 (ofLanes32 [z, t, x, y]) (ofLanes32 [x, y, z, t]) =
      ofLanes32 [i32 (z + x), i32 (t + y), i32 (x + z), i32 (y + t)] := by
    unfold add32
    simp only [lanes32_ofLanes32, List.map_cons, List.map_nil, List.zipWith_cons_cons,
      List.zipWith_nil_left, i32_i32_add, i32_add_i32]
  have e3 : ∀ a b c d : ℤ, shufflelo16 [2, 3, 0, 1] (ofLanes32 [a, b, c, d]) = ofLanes32 [b, a, c, d] :=
    fun _ _ _ _ => rfl
  have e4 : ∀ a b c d a' b' c' d' : ℤ, add32 (ofLanes32 [a, b, c, d]) (ofLanes32 [a', b', c', d']) =
      ofLanes32 [i32 (a + a'), i32 (b + b'), i32 (c + c'), i32 (d + d')] := by
    intro a b c d a' b' c' d'
    unfold add32
    simp only [lanes32_ofLanes32, List.map_cons, List.map_nil, List.zipWith_cons_cons,
      List.zipWith_nil_left, i32_i32_add, i32_add_i32]
  dsimp only
  rw [e1, e2, e3, e4]
  have e5 : ∀ r, (packus16 (packus32 (srai32 PRECISION r) (srai32 PRECISION r))
      (packus32 (srai32 PRECISION r) (srai32 PRECISION r))) = compressI32 r := fun _ => rfl
  rw [e5, compressI32_of]
  simp only [i32_i32, i32_i32_add, i32_add_i32]
  show [packu _] = _
  congr 3
  ring

theorem planeSse_spec {src offs : List ℕ} {w : List ℤ} {b : Bounds} (h : HPre 1 src offs w b) :
    planeSse src offs w b = some (offs.map fun o => (List.range 1).map (hVal 1 src o w b)) := by
  have h0 := h.size
  obtain ⟨n1, s1, a1, a2, a3, a4, a5⟩ := rowsLoop_inv (P := PlaneInv src w b) (margin := 8) (step := 8)
    (size := b.size) (jx := 0) (offs := offs) (f := planeSse8 src w b)
    (st := offs.map fun _ => setr32 [ROUNDING_CONST, 0, 0, 0]) (by omega) (by omega)
    (fun m hm o ho s hs => planeSse8_inv h (by omega) ho hs) (by omega)
    (forall₂_init offs _ fun o _ => ⟨_, _, _, _, rfl, rfl⟩)
  obtain ⟨n2, s2, b1, b2, b3, b4, b5⟩ := rowsLoop_inv (P := PlaneInv src w b) (margin := 4) (step := 4)
    (size := b.size) (jx := 0 + n1 * 8) (offs := offs) (f := planeSse4 src w b)
    (st := s1) (by omega) (by omega)
    (fun m hm o ho s hs => planeSse4_inv h (by omega) ho hs) (by omega) a2
  obtain ⟨n3, s3, c1, c2, c3, c4, c5⟩ := rowsLoop_inv (P := PlaneInv src w b) (margin := 0) (step := 1)
    (size := b.size) (jx := 0 + n1 * 8 + n2 * 4) (offs := offs) (f := planeSse1 src w b)
    (st := s2) (by omega) (by omega)
    (fun m hm o ho s hs => planeSse1_inv h (by omega) ho hs) (by omega) b2
  unfold planeSse
  dsimp only
  rw [a1]
  simp only [Option.bind_eq_bind, Option.bind_some]
  rw [b1]
  simp only [Option.bind_some]
  rw [c1]
  simp only [Option.bind_some]
  congr 1
  refine forall₂_eq c2 fun o _ s hs => ?_
  have e : 0 + n1 * 8 + n2 * 4 + n3 * 1 = b.size := by omega
  rw [e] at hs
  obtain ⟨x, y, z, t, hs, he⟩ := hs
  rw [hs, planeFinish_of, he]
  rfl

end PicScale
