import Verif.Lemmas.SimdHorizontal

/-!
The low precision x86 horizontal handlers (`rgba_u8_lb`, `plane_u8_hrs`, `cbcr8_hrs`).
-/

namespace PicScale

open Finset

/-- Low precision accumulator of channel `c` after `n` pixels; `W k c` is the weight applied to
channel `c` of pixel `k`. -/
def lbAcc (W : ℕ → ℕ → ℤ) (N : ℕ) (src : List ℕ) (o : ℕ) (b : Bounds) (n c : ℕ) : ℤ :=
  i16 (32 + ∑ k ∈ range n, lpTerm (pxb N src o b k c) (W k c))

theorem lbAcc_succ (W : ℕ → ℕ → ℤ) (N : ℕ) (src : List ℕ) (o : ℕ) (b : Bounds) (n c : ℕ) :
    lbAcc W N src o b (n + 1) c =
      i16 (lbAcc W N src o b n c + lpTerm (pxb N src o b n c) (W n c)) := by
  unfold lbAcc
  rw [i16_i16_add, sum_range_succ, add_assoc]

theorem i16_lbAcc (W : ℕ → ℕ → ℤ) (N : ℕ) (src : List ℕ) (o : ℕ) (b : Bounds) (n c : ℕ) :
    i16 (lbAcc W N src o b n c) = lbAcc W N src o b n c := by unfold lbAcc; exact i16_i16 _

theorem lpTerm_zero (w : ℤ) : lpTerm 0 w = 0 := by
  unfold lpTerm mulhrs1
  norm_num
  decide

theorem i16_emod (v : ℤ) : i16 v % 65536 = v % 65536 := by
  unfold i16
  rw [Int.bmod_def]
  push_cast
  split <;> omega

/-- The same weight for every channel. -/
def wAll (w : List ℤ) (k _c : ℕ) : ℤ := i16 (w.getD k 0)

/-- Each byte twice. -/
def dup8 (q : ℕ → ℕ) : Reg := [q 0, q 0, q 1, q 1, q 2, q 2, q 3, q 3, q 4, q 4, q 5, q 5, q 6, q 6,
  q 7, q 7]

theorem mul_dup8 {q : ℕ → ℕ} (hq : ∀ i, q i < 256) (v : ℕ → ℤ) {wr : Reg}
    (hw : lanes16 wr = [v 0, v 1, v 2, v 3, v 4, v 5, v 6, v 7]) :
    mulhrs16 (srli16 2 (dup8 q)) wr = eightOf fun i => lpTerm (q i) (v i) := by
  unfold mulhrs16 srli16 dup8 eightOf
  rw [hw]
  simp only [lanes16_cons, lanes16_nil, lanes16_ofLanes16, List.map_cons, List.map_nil,
    srli_double (hq _), List.zipWith_cons_cons, List.zipWith_nil_left]
  rfl

theorem add_eight (f g : ℕ → ℤ) : add16 (eightOf f) (eightOf g) = eightOf fun i => i16 (f i + g i) := by
  unfold add16 eightOf
  simp only [lanes16_ofLanes16, List.map_cons, List.map_nil, List.zipWith_cons_cons,
    List.zipWith_nil_left, i16_i16_add, i16_add_i16]

theorem dupLo_16 (p : ℕ → ℕ) : dupLo ((List.range 16).map p) = srli16 2 (dup8 p) := rfl
theorem dupHi_16 (p : ℕ → ℕ) :
    dupHi ((List.range 16).map p) = srli16 2 (dup8 fun i => p (8 + i)) := rfl
theorem dupLo_8 (p : ℕ → ℕ) :
    dupLo ((List.range 8).map p ++ List.replicate 8 0) = srli16 2 (dup8 p) := rfl
theorem dupLo_4 (p : ℕ → ℕ) : dupLo ((List.range 4).map p ++ List.replicate 12 0) =
    srli16 2 (dup8 fun i => if i < 4 then p i else 0) := rfl
theorem dupLo_2 (p : ℕ → ℕ) : dupLo ((List.range 2).map p ++ List.replicate 14 0) =
    srli16 2 (dup8 fun i => if i < 2 then p i else 0) := rfl

theorem ite_lt {n : ℕ} {p : ℕ → ℕ} (hp : ∀ i, p i < 256) : ∀ i, (if i < n then p i else 0) < 256 := by
  intro i
  split
  · exact hp i
  · norm_num

/-! ### `src/sse/rgba_u8_lb.rs` -/

/-- State of one row: lanes `c` and `4 + c` add up to channel `c`. -/
def LbInv (W : ℕ → ℕ → ℤ) (src : List ℕ) (b : Bounds) (o n : ℕ) (s : Reg) : Prop :=
  ∃ f : ℕ → ℤ, s = eightOf f ∧ ∀ c, c < 4 → i16 (f c + f (4 + c)) = lbAcc W 4 src o b n c

theorem lanes_lbw (w0 w1 : ℤ) (r : Reg) (hr : r = ofLanes16 [w0, w1] ++ List.replicate 12 0) :
    lanes16 (shuffle8 r lbShuffleWeights) = [i16 w0, i16 w0, i16 w0, i16 w0, i16 w1, i16 w1, i16 w1,
      i16 w1] := by
  subst hr
  show lanes16 (ofLanes16 [w0, w0, w0, w0, w1, w1, w1, w1]) = _
  rw [lanes16_ofLanes16]; rfl

/-- Lane weights of a pair of pixels. -/
def pairW (w0 w1 : ℤ) (i : ℕ) : ℤ := if i < 4 then i16 w0 else i16 w1

theorem lanes_lbw' (w0 w1 : ℤ) : lanes16 (shuffle8 (ofLanes16 [w0, w1] ++ List.replicate 12 0)
    lbShuffleWeights) = [pairW w0 w1 0, pairW w0 w1 1, pairW w0 w1 2, pairW w0 w1 3, pairW w0 w1 4,
      pairW w0 w1 5, pairW w0 w1 6, pairW w0 w1 7] := lanes_lbw w0 w1 _ rfl

theorem hdot_core {p : ℕ → ℕ} (hp : ∀ i, p i < 256) (f : ℕ → ℤ) (v : ℕ → ℤ) {wr : Reg}
    (hw : lanes16 wr = [v 0, v 1, v 2, v 3, v 4, v 5, v 6, v 7]) :
    lbHdot (eightOf f) ((List.range 8).map p ++ List.replicate 8 0) wr =
      eightOf fun i => i16 (f i + lpTerm (p i) (v i)) := by
  unfold lbHdot
  rw [dupLo_8, mul_dup8 hp _ hw, add_eight]

theorem hdot16_core {p : ℕ → ℕ} (hp : ∀ i, p i < 256) (f : ℕ → ℤ) (v : ℕ → ℤ) {wr : Reg}
    (hw : lanes16 wr = [v 0, v 1, v 2, v 3, v 4, v 5, v 6, v 7]) :
    lbHdot (eightOf f) ((List.range 16).map p) wr =
      eightOf fun i => i16 (f i + lpTerm (p i) (v i)) := by
  unfold lbHdot
  rw [dupLo_16, mul_dup8 hp _ hw, add_eight]

theorem hdot2_core {p : ℕ → ℕ} (hp : ∀ i, p i < 256) (f : ℕ → ℤ) (v u : ℕ → ℤ) {wr wr' : Reg}
    (hw : lanes16 wr = [v 0, v 1, v 2, v 3, v 4, v 5, v 6, v 7])
    (hw' : lanes16 wr' = [u 0, u 1, u 2, u 3, u 4, u 5, u 6, u 7]) :
    lbHdot2 (eightOf f) ((List.range 16).map p) wr wr' =
      eightOf fun i => i16 (f i + i16 (lpTerm (p i) (v i) + lpTerm (p (8 + i)) (u i))) := by
  unfold lbHdot2
  dsimp only
  rw [dupLo_16, dupHi_16, mul_dup8 hp _ hw, mul_dup8 (fun i => hp (8 + i)) _ hw', add_eight, add_eight]

theorem hdot4_core {p : ℕ → ℕ} (hp : ∀ i, p i < 256) (f : ℕ → ℤ) (v0 v1 v2 v3 : ℕ → ℤ)
    {r0 r1 r2 r3 : Reg}
    (h0 : lanes16 r0 = [v0 0, v0 1, v0 2, v0 3, v0 4, v0 5, v0 6, v0 7])
    (h1 : lanes16 r1 = [v1 0, v1 1, v1 2, v1 3, v1 4, v1 5, v1 6, v1 7])
    (h2 : lanes16 r2 = [v2 0, v2 1, v2 2, v2 3, v2 4, v2 5, v2 6, v2 7])
    (h3 : lanes16 r3 = [v3 0, v3 1, v3 2, v3 3, v3 4, v3 5, v3 6, v3 7]) :
    lbHdot4 (eightOf f) ((List.range 16).map p) ((List.range 16).map fun i => p (16 + i)) r0 r1 r2 r3 =
      eightOf fun i => i16 (f i + i16 (i16 (i16 (lpTerm (p i) (v0 i) + lpTerm (p (8 + i)) (v1 i)) +
        lpTerm (p (16 + i)) (v2 i)) + lpTerm (p (16 + (8 + i))) (v3 i))) := by
  unfold lbHdot4
  dsimp only
  rw [dupLo_16, dupHi_16, dupLo_16, dupHi_16, mul_dup8 hp _ h0, mul_dup8 (fun i => hp (8 + i)) _ h1,
    mul_dup8 (fun i => hp (16 + i)) _ h2, mul_dup8 (fun i => hp (16 + (8 + i))) _ h3, add_eight,
    add_eight, add_eight, add_eight]

theorem load_px16 {src : List ℕ} {o : ℕ} {b : Bounds} {jx : ℕ} {N : ℕ} (hN : 0 < N)
    (h : o + (b.start + jx) * N + 32 ≤ src.length) :
    load128 src (o + (b.start + jx) * N + 16) = some ((List.range 16).map fun i =>
      (fun i => pxb N src o b (jx + i / N) (i % N)) (16 + i)) := by
  unfold load128
  rw [loadBytes_px hN (by omega)]

theorem fin4 {P : ℕ → Prop} (h0 : P 0) (h1 : P 1) (h2 : P 2) (h3 : P 3) : ∀ c, c < 4 → P c := by
  intro c hc
  have : c = 0 ∨ c = 1 ∨ c = 2 ∨ c = 3 := by omega
  rcases this with rfl | rfl | rfl | rfl <;> assumption

/-- Equalities between sums of 16-bit wrapped sums. -/
theorem i16_step {a b x y z : ℤ} (h : i16 (a + b) = z) :
    i16 (i16 (a + x) + i16 (b + y)) = i16 (z + (x + y)) := by
  rw [← h]
  simp only [i16_i16_add, i16_add_i16]
  congr 1
  ring

theorem rgbaLb8_inv {src offs : List ℕ} {w : List ℤ} {b : Bounds} (h : HPre 4 src offs w b) {jx : ℕ}
    (hj : jx + 8 ≤ b.size) {o : ℕ} (ho : o ∈ offs) {s : Reg} (hs : LbInv (wAll w) src b o jx s) :
    ∃ s', rgbaLb8 src w b jx o s = some s' ∧ LbInv (wAll w) src b o (jx + 8) s' := by
  have hr := h.room ho hj
  have := h.weights
  obtain ⟨f, hs, he⟩ := hs
  unfold rgbaLb8
  rw [loadWeights_eq (by omega), loadWeights_eq (by omega), loadWeights_eq (by omega),
    loadWeights_eq (by omega), load_px16 (by norm_num) (by omega), load128,
    loadBytes_px0 (by norm_num) (by omega), hs]
  refine ⟨_, rfl, _, hdot4_core (p := fun i => pxb 4 src o b (jx + i / 4) (i % 4))
    (fun i => pxb_lt _ _ _ _ _ _) f _ _ _ _ (lanes_lbw' (w.getD jx 0) (w.getD (jx + 1) 0))
    (lanes_lbw' (w.getD (jx + 2) 0) (w.getD (jx + 3) 0))
    (lanes_lbw' (w.getD (jx + 4) 0) (w.getD (jx + 5) 0))
    (lanes_lbw' (w.getD (jx + 6) 0) (w.getD (jx + 7) 0)), ?_⟩
  intro c hc
  rw [show jx + 8 = jx + 7 + 1 from rfl, lbAcc_succ, show jx + 7 = jx + 6 + 1 from rfl, lbAcc_succ,
    show jx + 6 = jx + 5 + 1 from rfl, lbAcc_succ, show jx + 5 = jx + 4 + 1 from rfl, lbAcc_succ,
    show jx + 4 = jx + 3 + 1 from rfl, lbAcc_succ, show jx + 3 = jx + 2 + 1 from rfl, lbAcc_succ,
    show jx + 2 = jx + 1 + 1 from rfl, lbAcc_succ, lbAcc_succ, ← he c hc]
  have c0 : c / 4 = 0 := by omega
  have c1 : c % 4 = c := by omega
  have d1 : (8 + c) / 4 = 2 ∧ (8 + c) % 4 = c := by omega
  have d2 : (16 + c) / 4 = 4 ∧ (16 + c) % 4 = c := by omega
  have d3 : (16 + (8 + c)) / 4 = 6 ∧ (16 + (8 + c)) % 4 = c := by omega
  have d4 : (4 + c) / 4 = 1 ∧ (4 + c) % 4 = c := by omega
  have d5 : (8 + (4 + c)) / 4 = 3 ∧ (8 + (4 + c)) % 4 = c := by omega
  have d6 : (16 + (4 + c)) / 4 = 5 ∧ (16 + (4 + c)) % 4 = c := by omega
  have d7 : (16 + (8 + (4 + c))) / 4 = 7 ∧ (16 + (8 + (4 + c))) % 4 = c := by omega
  simp only [pairW, if_pos hc, if_neg (show ¬ 4 + c < 4 by omega), c0, c1, d1, d2, d3, d4, d5, d6, d7,
    i16_i16_add, i16_add_i16, wAll, Nat.add_zero, Nat.add_assoc, Nat.reduceAdd]
  congr 1
  ring

theorem lbAcc_add2 (W : ℕ → ℕ → ℤ) (N : ℕ) (src : List ℕ) (o : ℕ) (b : Bounds) (n c : ℕ) :
    lbAcc W N src o b (n + 2) c = i16 (lbAcc W N src o b n c +
      (lpTerm (pxb N src o b n c) (W n c) + lpTerm (pxb N src o b (n + 1) c) (W (n + 1) c))) := by
  rw [lbAcc_succ, lbAcc_succ, i16_i16_add, add_assoc]

theorem lbAcc_add4 (W : ℕ → ℕ → ℤ) (N : ℕ) (src : List ℕ) (o : ℕ) (b : Bounds) (n c : ℕ) :
    lbAcc W N src o b (n + 4) c = i16 (lbAcc W N src o b n c +
      (lpTerm (pxb N src o b n c) (W n c) + lpTerm (pxb N src o b (n + 1) c) (W (n + 1) c) +
       lpTerm (pxb N src o b (n + 2) c) (W (n + 2) c) +
       lpTerm (pxb N src o b (n + 3) c) (W (n + 3) c))) := by
  have e : lbAcc W N src o b (n + 4) c = _ := lbAcc_add2 W N src o b (n + 2) c
  rw [e, lbAcc_add2, i16_i16_add]
  congr 1
  ring

theorem lbAcc_add8 (W : ℕ → ℕ → ℤ) (N : ℕ) (src : List ℕ) (o : ℕ) (b : Bounds) (n c : ℕ) :
    lbAcc W N src o b (n + 8) c = i16 (lbAcc W N src o b n c +
      (lpTerm (pxb N src o b n c) (W n c) + lpTerm (pxb N src o b (n + 1) c) (W (n + 1) c) +
       lpTerm (pxb N src o b (n + 2) c) (W (n + 2) c) +
       lpTerm (pxb N src o b (n + 3) c) (W (n + 3) c) +
       lpTerm (pxb N src o b (n + 4) c) (W (n + 4) c) +
       lpTerm (pxb N src o b (n + 5) c) (W (n + 5) c) +
       lpTerm (pxb N src o b (n + 6) c) (W (n + 6) c) +
       lpTerm (pxb N src o b (n + 7) c) (W (n + 7) c))) := by
  have e : lbAcc W N src o b (n + 8) c = _ := lbAcc_add4 W N src o b (n + 4) c
  rw [e, lbAcc_add4, i16_i16_add]
  congr 1
  ring

theorem rgbaLb4_inv {src offs : List ℕ} {w : List ℤ} {b : Bounds} (h : HPre 4 src offs w b) {jx : ℕ}
    (hj : jx + 4 ≤ b.size) {o : ℕ} (ho : o ∈ offs) {s : Reg} (hs : LbInv (wAll w) src b o jx s) :
    ∃ s', rgbaLb4 src w b jx o s = some s' ∧ LbInv (wAll w) src b o (jx + 4) s' := by
  have hr := h.room ho hj
  have := h.weights
  obtain ⟨f, hs, he⟩ := hs
  unfold rgbaLb4 load128
  rw [loadWeights_eq (by omega), loadWeights_eq (by omega), loadBytes_px0 (by norm_num) (by omega), hs]
  refine ⟨_, rfl, _, hdot2_core (fun i => pxb_lt _ _ _ _ _ _) f _ _
    (lanes_lbw' (w.getD jx 0) (w.getD (jx + 1) 0))
    (lanes_lbw' (w.getD (jx + 2) 0) (w.getD (jx + 3) 0)), ?_⟩
  intro c hc
  rw [lbAcc_add4, ← he c hc]
  have c0 : c / 4 = 0 := by omega
  have c1 : c % 4 = c := by omega
  have d1 : (8 + c) / 4 = 2 ∧ (8 + c) % 4 = c := by omega
  have d4 : (4 + c) / 4 = 1 ∧ (4 + c) % 4 = c := by omega
  have d5 : (8 + (4 + c)) / 4 = 3 ∧ (8 + (4 + c)) % 4 = c := by omega
  simp only [pairW, if_pos hc, if_neg (show ¬ 4 + c < 4 by omega), c0, c1, d1, d4, d5,
    i16_i16_add, i16_add_i16, wAll, Nat.add_zero]
  congr 1
  ring

/-- Two pixels, for any weights that are the given ones on the two pixels. -/
theorem lb2_inv {W : ℕ → ℕ → ℤ} {src : List ℕ} {b : Bounds} {jx o : ℕ} {f : ℕ → ℤ} {w0 w1 : ℤ}
    (he : ∀ c, c < 4 → i16 (f c + f (4 + c)) = lbAcc W 4 src o b jx c)
    (h0 : ∀ c, c < 4 → W jx c = i16 w0) (h1 : ∀ c, c < 4 → W (jx + 1) c = i16 w1) {wr : Reg}
    (hw : lanes16 wr = [pairW w0 w1 0, pairW w0 w1 1, pairW w0 w1 2, pairW w0 w1 3, pairW w0 w1 4,
      pairW w0 w1 5, pairW w0 w1 6, pairW w0 w1 7]) :
    LbInv W src b o (jx + 2) (lbHdot (eightOf f) ((List.range 8).map
      (fun i => pxb 4 src o b (jx + i / 4) (i % 4)) ++ List.replicate 8 0) wr) := by
  refine ⟨_, hdot_core (fun i => pxb_lt _ _ _ _ _ _) f _ hw, ?_⟩
  intro c hc
  rw [lbAcc_add2, ← he c hc]
  have c0 : c / 4 = 0 := by omega
  have c1 : c % 4 = c := by omega
  have d4 : (4 + c) / 4 = 1 ∧ (4 + c) % 4 = c := by omega
  simp only [pairW, if_pos hc, if_neg (show ¬ 4 + c < 4 by omega), c0, c1, d4,
    i16_i16_add, i16_add_i16, Nat.add_zero, h0 c hc, h1 c hc]
  congr 1
  ring

theorem rgbaLb2_inv {src offs : List ℕ} {w : List ℤ} {b : Bounds} (h : HPre 4 src offs w b) {jx : ℕ}
    (hj : jx + 2 ≤ b.size) {o : ℕ} (ho : o ∈ offs) {s : Reg} (hs : LbInv (wAll w) src b o jx s) :
    ∃ s', rgbaLb2 src w b jx o s = some s' ∧ LbInv (wAll w) src b o (jx + 2) s' := by
  have hr := h.room ho hj
  have := h.weights
  obtain ⟨f, hs, he⟩ := hs
  unfold rgbaLb2 load64
  rw [loadWeights_eq (by omega), loadBytes_px0 (by norm_num) (by omega), hs]
  exact ⟨_, rfl, lb2_inv he (fun _ _ => rfl) (fun _ _ => rfl) (lanes_lbw' _ _)⟩

theorem lb1_core {p : ℕ → ℕ} (hp : ∀ i, p i < 256) (f : ℕ → ℤ) (w : ℤ) :
    add16 (eightOf f) (mulhrs16 (dupLo ((List.range 4).map p ++ List.replicate 12 0)) (set1epi16 w)) =
      eightOf fun i => i16 (f i + lpTerm (if i < 4 then p i else 0) (i16 w)) := by
  rw [dupLo_4, mul_dup8 (ite_lt hp) (fun _ => i16 w) (lanes_set16 w), add_eight]

/-- One pixel, for any weights that are the given one on this pixel. -/
theorem rgbaLb1_inv {W : ℕ → ℕ → ℤ} {src offs : List ℕ} {w : List ℤ} {b : Bounds}
    (h : HPre 4 src offs w b) {jx : ℕ} (hj : jx + 1 ≤ b.size) {o : ℕ} (ho : o ∈ offs)
    (hW : ∀ c, c < 4 → W jx c = i16 (w.getD jx 0)) {s : Reg} (hs : LbInv W src b o jx s) :
    ∃ s', rgbaLb1 src w b jx o s = some s' ∧ LbInv W src b o (jx + 1) s' := by
  have hr := h.room ho hj
  have := h.weights
  rw [← Nat.add_assoc, Nat.add_mul] at hr
  obtain ⟨f, hs, he⟩ := hs
  unfold rgbaLb1 load32
  rw [getElem?_eq_some_getD 0 (by omega), loadBytes_px0 (by norm_num) (by omega), hs]
  refine ⟨_, rfl, _, lb1_core (fun i => pxb_lt _ _ _ _ _ _) f _, ?_⟩
  intro c hc
  rw [lbAcc_succ, ← he c hc, hW c hc]
  have c0 : c / 4 = 0 := by omega
  have c1 : c % 4 = c := by omega
  simp only [if_pos hc, if_neg (show ¬ 4 + c < 4 by omega), c0, c1, lpTerm_zero,
    i16_i16_add, i16_add_i16, Nat.add_zero]
  congr 1
  ring

theorem lbFinish_of (f : ℕ → ℤ) : lbFinish (eightOf f) =
    (List.range 4).map fun c => Spec.clamp 255 (i16 (f c + f (4 + c)) >>> 6) := by
  unfold lbFinish
  have e1 : unpackhi64 (eightOf f) (eightOf f) = eightOf fun i => f (4 + i % 4) := rfl
  dsimp only
  rw [e1, add_eight, lp_pack8]
  simp only [i16_i16]
  rfl

/-- The value of a low precision handler. -/
def lbVal (W : ℕ → ℕ → ℤ) (N : ℕ) (src : List ℕ) (o : ℕ) (b : Bounds) (c : ℕ) : ℕ :=
  Spec.clamp 255 (lbAcc W N src o b b.size c >>> 6)

theorem lbFinish_inv {W : ℕ → ℕ → ℤ} {src : List ℕ} {b : Bounds} {o : ℕ} {s : Reg}
    (hs : LbInv W src b o b.size s) : lbFinish s = (List.range 4).map (lbVal W 4 src o b) := by
  obtain ⟨f, hs, he⟩ := hs
  rw [hs, lbFinish_of]
  apply List.map_congr_left
  intro c hc
  have : c < 4 := by simpa using hc
  rw [he c this]
  rfl

theorem lbInit_inv (W : ℕ → ℕ → ℤ) (src : List ℕ) (b : Bounds) (o : ℕ) : LbInv W src b o 0 lbInit := by
  refine ⟨fun i => if i < 4 then 32 else 0, rfl, ?_⟩
  intro c hc
  dsimp only
  rw [if_pos hc, if_neg (by omega)]
  unfold lbAcc
  simp

theorem rgbaSseLb_spec {src offs : List ℕ} {w : List ℤ} {b : Bounds} (h : HPre 4 src offs w b) :
    rgbaSseLb src offs w b =
      some (offs.map fun o => (List.range 4).map (lbVal (wAll w) 4 src o b)) := by
  have h0 := h.size
  obtain ⟨n1, s1, a1, a2, a3, a4, a5⟩ := rowsLoop_inv (P := LbInv (wAll w) src b) (margin := 8)
    (step := 8) (size := b.size) (jx := 0) (offs := offs) (f := rgbaLb8 src w b)
    (st := offs.map fun _ => lbInit) (by omega) (by omega)
    (fun m hm o ho s hs => rgbaLb8_inv h (by omega) ho hs) (by omega)
    (forall₂_init offs _ fun o _ => lbInit_inv _ _ _ _)
  obtain ⟨n2, s2, b1, b2, b3, b4, b5⟩ := rowsLoop_inv (P := LbInv (wAll w) src b) (margin := 4)
    (step := 4) (size := b.size) (jx := 0 + n1 * 8) (offs := offs) (f := rgbaLb4 src w b)
    (st := s1) (by omega) (by omega)
    (fun m hm o ho s hs => rgbaLb4_inv h (by omega) ho hs) (by omega) a2
  obtain ⟨n3, s3, c1, c2, c3, c4, c5⟩ := rowsLoop_inv (P := LbInv (wAll w) src b) (margin := 2)
    (step := 2) (size := b.size) (jx := 0 + n1 * 8 + n2 * 4) (offs := offs) (f := rgbaLb2 src w b)
    (st := s2) (by omega) (by omega)
    (fun m hm o ho s hs => rgbaLb2_inv h (by omega) ho hs) (by omega) b2
  obtain ⟨n4, s4, d1, d2, d3, d4, d5⟩ := rowsLoop_inv (P := LbInv (wAll w) src b) (margin := 0)
    (step := 1) (size := b.size) (jx := 0 + n1 * 8 + n2 * 4 + n3 * 2) (offs := offs)
    (f := rgbaLb1 src w b) (st := s3) (by omega) (by omega)
    (fun m hm o ho s hs => rgbaLb1_inv h (by omega) ho (fun _ _ => rfl) hs) (by omega) c2
  unfold rgbaSseLb
  dsimp only
  rw [a1]
  simp only [Option.bind_eq_bind, Option.bind_some]
  rw [b1]
  simp only [Option.bind_some]
  rw [c1]
  simp only [Option.bind_some]
  rw [d1]
  simp only [Option.bind_some]
  congr 1
  refine forall₂_eq d2 fun o _ s hs => ?_
  have e : 0 + n1 * 8 + n2 * 4 + n3 * 2 + n4 * 1 = b.size := by omega
  rw [e] at hs
  exact lbFinish_inv hs

/-! ### `src/avx2/rgba_u8_lb.rs` -/

/-- Weight that the AVX2 handler applies to channel `c` of pixel `k`: for channel 3 and the fifth
pixel of every group of eight, the weight of the next pixel. -/
def wAvx (w : List ℤ) (b : Bounds) (k c : ℕ) : ℤ :=
  i16 (w.getD (if c = 3 ∧ k % 8 = 4 ∧ 8 * (k / 8) + 8 < b.size then k + 1 else k) 0)

/-- State of one row while it is 256 bits wide. -/
def LbWideInv (W : ℕ → ℕ → ℤ) (src : List ℕ) (b : Bounds) (o n : ℕ) (s : Reg × Reg) : Prop :=
  ∃ f g : ℕ → ℤ, s = (eightOf f, eightOf g) ∧
    ∀ c, c < 4 → i16 (f c + f (4 + c) + (g c + g (4 + c))) = lbAcc W 4 src o b n c

theorem i16_wide {a b c d : ℤ} : i16 (i16 a + i16 b + (i16 c + i16 d)) = i16 (a + b + (c + d)) := by
  have ha := i16_emod a
  have hb := i16_emod b
  have hc := i16_emod c
  have hd := i16_emod d
  apply i16_congr
  omega

theorem lanes_setr (w0 w1 w2 w3 w4 w5 w6 w7 : ℤ) (v : ℕ → ℤ) (h0 : v 0 = i16 w0) (h1 : v 1 = i16 w1)
    (h2 : v 2 = i16 w2) (h3 : v 3 = i16 w3) (h4 : v 4 = i16 w4) (h5 : v 5 = i16 w5)
    (h6 : v 6 = i16 w6) (h7 : v 7 = i16 w7) :
    lanes16 (setr16 [w0, w1, w2, w3, w4, w5, w6, w7]) =
      [v 0, v 1, v 2, v 3, v 4, v 5, v 6, v 7] := by
  unfold setr16
  rw [lanes16_ofLanes16, h0, h1, h2, h3, h4, h5, h6, h7]; rfl

/-- Lane weights of the fifth and sixth pixel: the fourth lane has the weight of the sixth. -/
def avxW45 (w4 w5 : ℤ) (i : ℕ) : ℤ := if i < 3 then i16 w4 else i16 w5

theorem avxLb8_core {p : ℕ → ℕ} (hp : ∀ i, p i < 256) (f g : ℕ → ℤ) (w0 w1 w2 w3 w4 w5 w6 w7 : ℤ) :
    (lbHdot2 (eightOf f) ((List.range 16).map p) (setr16 [w0, w0, w0, w0, w1, w1, w1, w1])
        (setr16 [w2, w2, w2, w2, w3, w3, w3, w3]),
      lbHdot2 (eightOf g) ((List.range 16).map fun i => p (16 + i))
        (setr16 [w4, w4, w4, w5, w5, w5, w5, w5]) (setr16 [w6, w6, w6, w6, w7, w7, w7, w7])) =
    (eightOf fun i => i16 (f i + i16 (lpTerm (p i) (pairW w0 w1 i) + lpTerm (p (8 + i)) (pairW w2 w3 i))),
      eightOf fun i => i16 (g i + i16 (lpTerm (p (16 + i)) (avxW45 w4 w5 i) +
        lpTerm (p (16 + (8 + i))) (pairW w6 w7 i)))) := by
  have e01 := lanes_setr w0 w0 w0 w0 w1 w1 w1 w1 (pairW w0 w1) rfl rfl rfl rfl rfl rfl rfl rfl
  have e23 := lanes_setr w2 w2 w2 w2 w3 w3 w3 w3 (pairW w2 w3) rfl rfl rfl rfl rfl rfl rfl rfl
  have e45 := lanes_setr w4 w4 w4 w5 w5 w5 w5 w5 (avxW45 w4 w5) rfl rfl rfl rfl rfl rfl rfl rfl
  have e67 := lanes_setr w6 w6 w6 w6 w7 w7 w7 w7 (pairW w6 w7) rfl rfl rfl rfl rfl rfl rfl rfl
  rw [hdot2_core hp f _ _ e01 e23, hdot2_core (fun i => hp (16 + i)) g _ _ e45 e67]

theorem avxLb4_core {p : ℕ → ℕ} (hp : ∀ i, p i < 256) (f g : ℕ → ℤ) (w0 w1 w2 w3 : ℤ) :
    (lbHdot (eightOf f) (permute50 ((List.range 16).map p)).1 (setr16 [w0, w0, w0, w0, w1, w1, w1, w1]),
      lbHdot (eightOf g) (permute50 ((List.range 16).map p)).2
        (setr16 [w2, w2, w2, w2, w3, w3, w3, w3])) =
    (eightOf fun i => i16 (f i + lpTerm (p i) (pairW w0 w1 i)),
      eightOf fun i => i16 (g i + lpTerm (p (8 + i)) (pairW w2 w3 i))) := by
  have e01 := lanes_setr w0 w0 w0 w0 w1 w1 w1 w1 (pairW w0 w1) rfl rfl rfl rfl rfl rfl rfl rfl
  have e23 := lanes_setr w2 w2 w2 w2 w3 w3 w3 w3 (pairW w2 w3) rfl rfl rfl rfl rfl rfl rfl rfl
  have f1 : dupLo (permute50 ((List.range 16).map p)).1 = srli16 2 (dup8 p) := rfl
  have f2 : dupLo (permute50 ((List.range 16).map p)).2 = srli16 2 (dup8 fun i => p (8 + i)) := rfl
  unfold lbHdot
  rw [f1, f2, mul_dup8 hp _ e01, mul_dup8 (fun i => hp (8 + i)) _ e23, add_eight, add_eight]

theorem i16_wide8 (f0 f1 g0 g1 a b x y : ℤ) :
    i16 (f0 + i16 a + (f1 + i16 b) + (g0 + i16 x + (g1 + i16 y))) =
      i16 (f0 + f1 + (g0 + g1) + (a + b + (x + y))) := by
  have ha := i16_emod a
  have hb := i16_emod b
  have hx := i16_emod x
  have hy := i16_emod y
  apply i16_congr
  omega

theorem rgbaAvxLb8_inv {src offs : List ℕ} {w : List ℤ} {b : Bounds} (h : HPre 4 src offs w b)
    {m : ℕ} (hj : 8 * m + 8 < b.size) {o : ℕ} (ho : o ∈ offs) {s : Reg × Reg}
    (hs : LbWideInv (wAvx w b) src b o (8 * m) s) :
    ∃ s', rgbaAvxLb8 src w b (8 * m) o s = some s' ∧ LbWideInv (wAvx w b) src b o (8 * m + 8) s' := by
  have hr := h.room ho (k := 8 * m + 8) (by omega)
  have := h.weights
  obtain ⟨f, g, hs, he⟩ := hs
  obtain ⟨jx, hjx⟩ : ∃ jx, jx = 8 * m := ⟨_, rfl⟩
  rw [← hjx] at he hr ⊢
  unfold rgbaAvxLb8
  rw [getElem?_eq_some_getD 0 (by omega), getElem?_eq_some_getD 0 (by omega),
    getElem?_eq_some_getD 0 (by omega), getElem?_eq_some_getD 0 (by omega),
    getElem?_eq_some_getD 0 (by omega), getElem?_eq_some_getD 0 (by omega),
    getElem?_eq_some_getD 0 (by omega), getElem?_eq_some_getD 0 (by omega),
    load_px16 (by norm_num) (by omega), load128, loadBytes_px0 (by norm_num) (by omega), hs]
  refine ⟨_, rfl, _, _, avxLb8_core (p := fun i => pxb 4 src o b (jx + i / 4) (i % 4))
    (fun i => pxb_lt _ _ _ _ _ _) f g _ _ _ _ _ _ _ _, ?_⟩
  intro c hc
  rw [lbAcc_add8, ← he c hc, i16_wide, i16_wide8]
  have c0 : c / 4 = 0 := by omega
  have c1 : c % 4 = c := by omega
  have d1 : (8 + c) / 4 = 2 ∧ (8 + c) % 4 = c := by omega
  have d2 : (16 + c) / 4 = 4 ∧ (16 + c) % 4 = c := by omega
  have d3 : (16 + (8 + c)) / 4 = 6 ∧ (16 + (8 + c)) % 4 = c := by omega
  have d4 : (4 + c) / 4 = 1 ∧ (4 + c) % 4 = c := by omega
  have d5 : (8 + (4 + c)) / 4 = 3 ∧ (8 + (4 + c)) % 4 = c := by omega
  have d6 : (16 + (4 + c)) / 4 = 5 ∧ (16 + (4 + c)) % 4 = c := by omega
  have d7 : (16 + (8 + (4 + c))) / 4 = 7 ∧ (16 + (8 + (4 + c))) % 4 = c := by omega
  have hW : ∀ i, i < 8 → i ≠ 4 → wAvx w b (jx + i) c = i16 (w.getD (jx + i) 0) := by
    intro i hi hne
    unfold wAvx
    rw [if_neg (by omega)]
  have hW4 : wAvx w b (jx + 4) c = avxW45 (w.getD (jx + 4) 0) (w.getD (jx + 5) 0) c := by
    unfold wAvx avxW45
    by_cases h3 : c = 3
    · rw [if_pos (by omega), if_neg (by omega)]
    · rw [if_neg (by omega), if_pos (by omega)]
  have hv5 : avxW45 (w.getD (jx + 4) 0) (w.getD (jx + 5) 0) (4 + c) = i16 (w.getD (jx + 5) 0) := by
    unfold avxW45; rw [if_neg (by omega)]
  have hW0 : wAvx w b jx c = i16 (w.getD jx 0) := hW 0 (by omega) (by omega)
  rw [hW 1 (by omega) (by omega), hW 2 (by omega) (by omega), hW 3 (by omega) (by omega), hW4,
    hW 5 (by omega) (by omega), hW 6 (by omega) (by omega), hW 7 (by omega) (by omega), hW0]
  simp only [pairW, if_pos hc, if_neg (show ¬ 4 + c < 4 by omega), c0, c1, d1, d2, d3, d4, d5, d6, d7,
    i16_i16_add, Nat.add_zero, hv5]
  congr 1
  ring

/-- Outside the groups of eight the weights are the right ones. -/
theorem wAvx_tail {w : List ℤ} {b : Bounds} {k c : ℕ} (h : b.size ≤ 8 * (k / 8) + 8) :
    wAvx w b k c = i16 (w.getD k 0) := by
  unfold wAvx
  rw [if_neg (by omega)]

theorem rgbaAvxLb4_inv {src offs : List ℕ} {w : List ℤ} {b : Bounds} (h : HPre 4 src offs w b)
    {jx m : ℕ} (hj : jx + 4 ≤ b.size) (hm : 8 * m ≤ jx) (hb : b.size ≤ 8 * m + 8) {o : ℕ}
    (ho : o ∈ offs) {s : Reg × Reg} (hs : LbWideInv (wAvx w b) src b o jx s) :
    ∃ s', rgbaAvxLb4 src w b jx o s = some s' ∧ LbWideInv (wAvx w b) src b o (jx + 4) s' := by
  have hr := h.room ho hj
  have := h.weights
  obtain ⟨f, g, hs, he⟩ := hs
  unfold rgbaAvxLb4
  rw [getElem?_eq_some_getD 0 (by omega), getElem?_eq_some_getD 0 (by omega),
    getElem?_eq_some_getD 0 (by omega), getElem?_eq_some_getD 0 (by omega),
    load128, loadBytes_px0 (by norm_num) (by omega), hs]
  refine ⟨_, rfl, _, _, avxLb4_core (p := fun i => pxb 4 src o b (jx + i / 4) (i % 4))
    (fun i => pxb_lt _ _ _ _ _ _) f g _ _ _ _, ?_⟩
  intro c hc
  rw [lbAcc_add4, ← he c hc, i16_wide, wAvx_tail (by omega), wAvx_tail (by omega),
    wAvx_tail (by omega), wAvx_tail (by omega)]
  have c0 : c / 4 = 0 := by omega
  have c1 : c % 4 = c := by omega
  have d1 : (8 + c) / 4 = 2 ∧ (8 + c) % 4 = c := by omega
  have d4 : (4 + c) / 4 = 1 ∧ (4 + c) % 4 = c := by omega
  have d5 : (8 + (4 + c)) / 4 = 3 ∧ (8 + (4 + c)) % 4 = c := by omega
  simp only [pairW, if_pos hc, if_neg (show ¬ 4 + c < 4 by omega), c0, c1, d1, d4, d5,
    i16_i16_add, i16_add_i16, Nat.add_zero]
  congr 1
  ring

theorem lanes_lbwAvx (w0 w1 : ℤ) : lanes16 (shuffle8 (set1bytes32 (ofLanes16 [w0, w1]))
    lbShuffleWeights) = [pairW w0 w1 0, pairW w0 w1 1, pairW w0 w1 2, pairW w0 w1 3, pairW w0 w1 4,
      pairW w0 w1 5, pairW w0 w1 6, pairW w0 w1 7] := by
  show lanes16 (ofLanes16 [w0, w0, w0, w0, w1, w1, w1, w1]) = _
  rw [lanes16_ofLanes16]; rfl

theorem rgbaAvxLb2_inv {src offs : List ℕ} {w : List ℤ} {b : Bounds} (h : HPre 4 src offs w b)
    {jx m : ℕ} (hj : jx + 2 ≤ b.size) (hm : 8 * m ≤ jx) (hb : b.size ≤ 8 * m + 8) {o : ℕ}
    (ho : o ∈ offs) {s : Reg} (hs : LbInv (wAvx w b) src b o jx s) :
    ∃ s', rgbaAvxLb2 src w b jx o s = some s' ∧ LbInv (wAvx w b) src b o (jx + 2) s' := by
  have hr := h.room ho hj
  have := h.weights
  obtain ⟨f, hs, he⟩ := hs
  unfold rgbaAvxLb2 load64
  rw [weightBytes_two (by omega), loadBytes_px0 (by norm_num) (by omega), hs]
  exact ⟨_, rfl, lb2_inv he (fun _ _ => wAvx_tail (by omega)) (fun _ _ => wAvx_tail (by omega))
    (lanes_lbwAvx _ _)⟩

theorem rgbaAvxLb_spec {src offs : List ℕ} {w : List ℤ} {b : Bounds} (h : HPre 4 src offs w b) :
    rgbaAvxLb src offs w b =
      some (offs.map fun o => (List.range 4).map (lbVal (wAvx w b) 4 src o b)) := by
  have h0 := h.size
  obtain ⟨n1, s1, a1, a2, a3, a4, a5⟩ := rowsLoop_inv (P := LbWideInv (wAvx w b) src b) (margin := 8)
    (step := 8) (size := b.size) (jx := 0) (offs := offs) (f := rgbaAvxLb8 src w b)
    (st := offs.map fun _ => (lbInit, setzero)) (by omega) (by omega)
    (fun m hm o ho s hs => by
      have e : 0 + m * 8 = 8 * m := by omega
      rw [e] at hs ⊢
      exact rgbaAvxLb8_inv h (by omega) ho hs) (by omega)
    (forall₂_init offs _ fun o _ => ⟨fun i => if i < 4 then 32 else 0, fun _ => 0, rfl, by
      intro c hc
      dsimp only
      rw [if_pos hc, if_neg (by omega)]
      unfold lbAcc
      simp⟩)
  obtain ⟨n2, s2, b1, b2, b3, b4, b5⟩ := rowsLoop_inv (P := LbWideInv (wAvx w b) src b) (margin := 4)
    (step := 4) (size := b.size) (jx := 0 + n1 * 8) (offs := offs) (f := rgbaAvxLb4 src w b)
    (st := s1) (by omega) (by omega)
    (fun m hm o ho s hs => rgbaAvxLb4_inv h (m := n1) (by omega) (by omega) (by omega) ho hs)
    (by omega) a2
  have mid : List.Forall₂ (fun o s => LbInv (wAvx w b) src b o (0 + n1 * 8 + n2 * 4) s) offs
      (s2.map fun s => add16 s.1 s.2) := by
    refine forall₂_map b2 fun o _ s hs => ?_
    obtain ⟨f, g, hs, he⟩ := hs
    refine ⟨fun i => i16 (f i + g i), ?_, ?_⟩
    · rw [hs]; exact add_eight _ _
    · intro c hc
      rw [← he c hc]
      simp only [i16_i16_add, i16_add_i16]
      congr 1
      ring
  obtain ⟨n3, s3, c1, c2, c3, c4, c5⟩ := rowsLoop_inv (P := LbInv (wAvx w b) src b) (margin := 2)
    (step := 2) (size := b.size) (jx := 0 + n1 * 8 + n2 * 4) (offs := offs) (f := rgbaAvxLb2 src w b)
    (st := s2.map fun s => add16 s.1 s.2) (by omega) (by omega)
    (fun m hm o ho s hs => rgbaAvxLb2_inv h (m := n1) (by omega) (by omega) (by omega) ho hs)
    (by omega) mid
  obtain ⟨n4, s4, d1, d2, d3, d4, d5⟩ := rowsLoop_inv (P := LbInv (wAvx w b) src b) (margin := 0)
    (step := 1) (size := b.size) (jx := 0 + n1 * 8 + n2 * 4 + n3 * 2) (offs := offs)
    (f := rgbaLb1 src w b) (st := s3) (by omega) (by omega)
    (fun m hm o ho s hs => rgbaLb1_inv h (by omega) ho (fun _ _ => wAvx_tail (by omega)) hs)
    (by omega) c2
  unfold rgbaAvxLb
  dsimp only
  rw [a1]
  simp only [Option.bind_eq_bind, Option.bind_some]
  rw [b1]
  simp only [Option.bind_some]
  rw [c1]
  simp only [Option.bind_some]
  rw [d1]
  simp only [Option.bind_some]
  congr 1
  refine forall₂_eq d2 fun o _ s hs => ?_
  have e : 0 + n1 * 8 + n2 * 4 + n3 * 2 + n4 * 1 = b.size := by omega
  rw [e] at hs
  exact lbFinish_inv hs

/-! ### `src/sse/plane_u8_hrs.rs` -/

/-- Sum of the eight lanes. -/
def sum8 (f : ℕ → ℤ) : ℤ := f 0 + f 1 + f 2 + f 3 + f 4 + f 5 + f 6 + f 7

theorem sum8_i16 (f g : ℕ → ℤ) : i16 (sum8 fun i => i16 (f i + g i)) = i16 (sum8 f + sum8 g) := by
  have h0 := i16_emod (f 0 + g 0)
  have h1 := i16_emod (f 1 + g 1)
  have h2 := i16_emod (f 2 + g 2)
  have h3 := i16_emod (f 3 + g 3)
  have h4 := i16_emod (f 4 + g 4)
  have h5 := i16_emod (f 5 + g 5)
  have h6 := i16_emod (f 6 + g 6)
  have h7 := i16_emod (f 7 + g 7)
  unfold sum8
  dsimp only
  apply i16_congr
  omega

/-- State of one row: the eight lanes add up to the accumulator. -/
def HrsInv (w : List ℤ) (src : List ℕ) (b : Bounds) (o n : ℕ) (s : Reg) : Prop :=
  ∃ f : ℕ → ℤ, s = eightOf f ∧ i16 (sum8 f) = lbAcc (wAll w) 1 src o b n 0

/-- Eight consecutive weights as lanes. -/
theorem lanes_w8 (v : ℕ → ℤ) : lanes16 (ofLanes16 ((List.range 8).map v)) =
    [i16 (v 0), i16 (v 1), i16 (v 2), i16 (v 3), i16 (v 4), i16 (v 5), i16 (v 6), i16 (v 7)] := by
  rw [lanes16_ofLanes16]; rfl

theorem hrs16_core {p : ℕ → ℕ} (hp : ∀ i, p i < 256) (f v : ℕ → ℤ) :
    add16 (add16 (eightOf f) (mulhrs16 (dupLo ((List.range 16).map p)) (ofLanes16 ((List.range 8).map v))))
      (mulhrs16 (dupHi ((List.range 16).map p)) (ofLanes16 ((List.range 8).map fun i => v (8 + i)))) =
      eightOf fun i => i16 (i16 (f i + lpTerm (p i) (i16 (v i))) +
        lpTerm (p (8 + i)) (i16 (v (8 + i)))) := by
  rw [dupLo_16, dupHi_16, mul_dup8 hp (fun i => i16 (v i)) (lanes_w8 v),
    mul_dup8 (fun i => hp (8 + i)) (fun i => i16 (v (8 + i))) (lanes_w8 fun i => v (8 + i)), add_eight,
    add_eight]

theorem hrs8_core {p : ℕ → ℕ} (hp : ∀ i, p i < 256) (f v : ℕ → ℤ) :
    add16 (eightOf f) (mulhrs16 (dupLo ((List.range 8).map p ++ List.replicate 8 0))
      (ofLanes16 ((List.range 8).map v))) =
      eightOf fun i => i16 (f i + lpTerm (p i) (i16 (v i))) := by
  rw [dupLo_8, mul_dup8 hp (fun i => i16 (v i)) (lanes_w8 v), add_eight]

theorem hrs4_core {p : ℕ → ℕ} (hp : ∀ i, p i < 256) (f v : ℕ → ℤ) :
    add16 (eightOf f) (mulhrs16 (dupLo ((List.range 4).map p ++ List.replicate 12 0))
      (ofLanes16 ((List.range 4).map v) ++ List.replicate 8 0)) =
      eightOf fun i => i16 (f i + lpTerm (if i < 4 then p i else 0) (if i < 4 then i16 (v i) else 0)) := by
  have e : lanes16 (ofLanes16 ((List.range 4).map v) ++ List.replicate 8 0) =
      [i16 (v 0), i16 (v 1), i16 (v 2), i16 (v 3), i16 0, i16 0, i16 0, i16 0] := by
    show lanes16 (ofLanes16 [v 0, v 1, v 2, v 3, 0, 0, 0, 0]) = _
    rw [lanes16_ofLanes16]; rfl
  rw [dupLo_4, mul_dup8 (ite_lt hp) (fun i => if i < 4 then i16 (v i) else 0) e, add_eight]

theorem hrs1_core {p : ℕ} (hp : p < 256) (f : ℕ → ℤ) (v : ℤ) :
    add16 (eightOf f) (mulhrs16 (srli16 2 ([p, p] ++ List.replicate 14 0))
      (ofLanes16 [v] ++ List.replicate 14 0)) =
      eightOf fun i => i16 (f i + lpTerm (if i < 1 then p else 0) (if i < 1 then i16 v else 0)) := by
  have e : lanes16 (ofLanes16 [v] ++ List.replicate 14 0) =
      [i16 v, i16 0, i16 0, i16 0, i16 0, i16 0, i16 0, i16 0] := by
    show lanes16 (ofLanes16 [v, 0, 0, 0, 0, 0, 0, 0]) = _
    rw [lanes16_ofLanes16]; rfl
  have e2 : [p, p] ++ List.replicate 14 0 = dup8 fun i => if i < 1 then p else 0 := rfl
  rw [e2, mul_dup8 (ite_lt (p := fun _ => p) fun _ => hp) (fun i => if i < 1 then i16 v else 0) e,
    add_eight]

theorem planeHrs16_inv {src offs : List ℕ} {w : List ℤ} {b : Bounds} (h : HPre 1 src offs w b) {jx : ℕ}
    (hj : jx + 16 ≤ b.size) {o : ℕ} (ho : o ∈ offs) {s : Reg} (hs : HrsInv w src b o jx s) :
    ∃ s', planeHrs16 src w b jx o s = some s' ∧ HrsInv w src b o (jx + 16) s' := by
  have hr := h.room ho hj
  have := h.weights
  obtain ⟨f, hs, he⟩ := hs
  have hl := loadBytes_px0 (N := 1) (by norm_num) (src := src) (o := o) (b := b) (jx := jx) (n := 16)
    (by omega)
  rw [Nat.mul_one] at hl
  unfold planeHrs16 load128
  rw [loadWeights_eq (by omega), loadWeights_eq (by omega), hl, hs]
  have ew : (fun k => w.getD (jx + 8 + k) 0) = fun k => (fun k => w.getD (jx + k) 0) (8 + k) := by
    funext k; simp only [Nat.add_assoc]
  simp only [Nat.reduceMul, Nat.sub_self, List.replicate_zero, List.append_nil, ew]
  refine ⟨_, rfl, _, hrs16_core (fun i => pxb_lt 1 src o b (jx + i / 1) (i % 1)) f
    (fun k => w.getD (jx + k) 0), ?_⟩
  have e1 : lbAcc (wAll w) 1 src o b (jx + 16) 0 = _ := lbAcc_add8 (wAll w) 1 src o b (jx + 8) 0
  rw [sum8_i16 (fun i => i16 (f i + lpTerm (pxb 1 src o b (jx + i / 1) (i % 1)) (i16 (w.getD (jx + i) 0)))),
    ← i16_i16_add, sum8_i16, ← i16_i16_add (sum8 f), he, e1, lbAcc_add8]
  simp only [sum8, wAll, Nat.reduceDiv, Nat.reduceMod, Nat.reduceAdd, Nat.add_zero, Nat.add_assoc,
    Nat.div_one, Nat.mod_one]

theorem planeHrs8_inv {src offs : List ℕ} {w : List ℤ} {b : Bounds} (h : HPre 1 src offs w b) {jx : ℕ}
    (hj : jx + 8 ≤ b.size) {o : ℕ} (ho : o ∈ offs) {s : Reg} (hs : HrsInv w src b o jx s) :
    ∃ s', planeHrs8 src w b jx o s = some s' ∧ HrsInv w src b o (jx + 8) s' := by
  have hr := h.room ho hj
  have := h.weights
  obtain ⟨f, hs, he⟩ := hs
  have hl := loadBytes_px0 (N := 1) (by norm_num) (src := src) (o := o) (b := b) (jx := jx) (n := 8)
    (by omega)
  rw [Nat.mul_one] at hl
  unfold planeHrs8 load64
  rw [loadWeights_eq (by omega), hl, hs]
  simp only [Nat.reduceMul, Nat.sub_self, List.replicate_zero, List.append_nil]
  refine ⟨_, rfl, _, hrs8_core (fun i => pxb_lt 1 src o b (jx + i / 1) (i % 1)) f
    (fun k => w.getD (jx + k) 0), ?_⟩
  rw [sum8_i16, ← i16_i16_add (sum8 f), he, lbAcc_add8]
  simp only [sum8, wAll, Nat.add_zero, Nat.div_one, Nat.mod_one]

theorem planeHrs4_inv {src offs : List ℕ} {w : List ℤ} {b : Bounds} (h : HPre 1 src offs w b) {jx : ℕ}
    (hj : jx + 4 ≤ b.size) {o : ℕ} (ho : o ∈ offs) {s : Reg} (hs : HrsInv w src b o jx s) :
    ∃ s', planeHrs4 src w b jx o s = some s' ∧ HrsInv w src b o (jx + 4) s' := by
  have hr := h.room ho hj
  have := h.weights
  obtain ⟨f, hs, he⟩ := hs
  have hl := loadBytes_px0 (N := 1) (by norm_num) (src := src) (o := o) (b := b) (jx := jx) (n := 4)
    (by omega)
  rw [Nat.mul_one] at hl
  unfold planeHrs4 load32
  rw [loadWeights_eq (by omega), hl, hs]
  refine ⟨_, rfl, _, hrs4_core (fun i => pxb_lt 1 src o b (jx + i / 1) (i % 1)) f
    (fun k => w.getD (jx + k) 0), ?_⟩
  rw [sum8_i16, ← i16_i16_add (sum8 f), he, lbAcc_add4]
  simp only [sum8, wAll, Nat.add_zero, Nat.div_one, Nat.mod_one, Nat.reduceLT, if_true, if_false,
    lpTerm_zero, add_zero, Nat.zero_lt_succ, Nat.lt_irrefl, Nat.one_lt_ofNat, Nat.ofNat_pos]

theorem planeHrs1_inv {src offs : List ℕ} {w : List ℤ} {b : Bounds} (h : HPre 1 src offs w b) {jx : ℕ}
    (hj : jx + 1 ≤ b.size) {o : ℕ} (ho : o ∈ offs) {s : Reg} (hs : HrsInv w src b o jx s) :
    ∃ s', planeHrs1 src w b jx o s = some s' ∧ HrsInv w src b o (jx + 1) s' := by
  have hr := h.room ho hj
  have := h.weights
  obtain ⟨f, hs, he⟩ := hs
  have hl := loadBytes_px0 (N := 1) (by norm_num) (src := src) (o := o) (b := b) (jx := jx) (n := 1)
    (by omega)
  rw [Nat.mul_one] at hl
  unfold planeHrs1
  rw [loadWeights_eq (by omega), hl, hs]
  refine ⟨_, rfl, _, hrs1_core (pxb_lt 1 src o b (jx + 0 / 1) (0 % 1)) f (w.getD (jx + 0) 0), ?_⟩
  rw [sum8_i16, ← i16_i16_add (sum8 f), he, lbAcc_succ]
  simp only [sum8, wAll, Nat.add_zero, Nat.div_one, Nat.mod_one, Nat.reduceLT, if_true, if_false,
    lpTerm_zero, add_zero, Nat.zero_lt_succ, Nat.lt_irrefl, Nat.one_lt_ofNat, Nat.ofNat_pos]

theorem hadd_eight (f : ℕ → ℤ) : hadd16 (eightOf f) (eightOf f) =
    eightOf fun i => i16 (f (2 * (i % 4)) + f (2 * (i % 4) + 1)) := by
  unfold hadd16 eightOf
  rw [lanes16_ofLanes16]
  simp only [List.map_cons, List.map_nil, haddLanes, i16_i16_add, i16_add_i16]
  rfl

theorem hrsFinish_of (f : ℕ → ℤ) : hrsFinish (eightOf f) = [Spec.clamp 255 (i16 (sum8 f) >>> 6)] := by
  unfold hrsFinish
  have e1 : ∀ g : ℕ → ℤ, shuffle32 [1, 0, 0, 0] (eightOf g) =
      eightOf fun i => g (if i = 0 then 2 else if i = 1 then 3 else i % 2) := fun _ => rfl
  dsimp only
  rw [hadd_eight, e1, add_eight, hadd_eight, lp_pack8]
  show [Spec.clamp 255 _] = _
  simp only [i16_i16, i16_i16_add, i16_add_i16]
  congr 3
  unfold sum8
  simp only [Nat.zero_mod, Nat.mul_zero, if_true, Nat.zero_add, Nat.reduceMod, Nat.reduceMul,
    Nat.reduceAdd, Nat.one_ne_zero, if_false]
  have : ∀ a b c d e f g h : ℤ, i16 (i16 (a + b) + i16 (c + d) + (i16 (e + f) + i16 (g + h))) =
      i16 (a + b + e + f + c + d + g + h) := by
    intro a b c d e f g h
    rw [i16_wide]
    congr 1
    ring
  first
    | rw [this]
    | (congr 1; ring)

theorem planeSseHrs_spec {src offs : List ℕ} {w : List ℤ} {b : Bounds} (h : HPre 1 src offs w b) :
    planeSseHrs src offs w b =
      some (offs.map fun o => (List.range 1).map (lbVal (wAll w) 1 src o b)) := by
  have h0 := h.size
  obtain ⟨n1, s1, a1, a2, a3, a4, a5⟩ := rowsLoop_inv (P := HrsInv w src b) (margin := 16)
    (step := 16) (size := b.size) (jx := 0) (offs := offs) (f := planeHrs16 src w b)
    (st := offs.map fun _ => setr16 [LP_ROUNDING, 0, 0, 0, 0, 0, 0, 0]) (by omega) (by omega)
    (fun m hm o ho s hs => planeHrs16_inv h (by omega) ho hs) (by omega)
    (forall₂_init offs _ fun o _ => ⟨fun i => if i = 0 then 32 else 0, rfl, by
      simp [sum8, lbAcc]⟩)
  obtain ⟨n2, s2, b1, b2, b3, b4, b5⟩ := rowsLoop_inv (P := HrsInv w src b) (margin := 8)
    (step := 8) (size := b.size) (jx := 0 + n1 * 16) (offs := offs) (f := planeHrs8 src w b)
    (st := s1) (by omega) (by omega)
    (fun m hm o ho s hs => planeHrs8_inv h (by omega) ho hs) (by omega) a2
  obtain ⟨n3, s3, c1, c2, c3, c4, c5⟩ := rowsLoop_inv (P := HrsInv w src b) (margin := 4)
    (step := 4) (size := b.size) (jx := 0 + n1 * 16 + n2 * 8) (offs := offs) (f := planeHrs4 src w b)
    (st := s2) (by omega) (by omega)
    (fun m hm o ho s hs => planeHrs4_inv h (by omega) ho hs) (by omega) b2
  obtain ⟨n4, s4, d1, d2, d3, d4, d5⟩ := rowsLoop_inv (P := HrsInv w src b) (margin := 0)
    (step := 1) (size := b.size) (jx := 0 + n1 * 16 + n2 * 8 + n3 * 4) (offs := offs)
    (f := planeHrs1 src w b) (st := s3) (by omega) (by omega)
    (fun m hm o ho s hs => planeHrs1_inv h (by omega) ho hs) (by omega) c2
  unfold planeSseHrs
  dsimp only
  rw [a1]
  simp only [Option.bind_eq_bind, Option.bind_some]
  rw [b1]
  simp only [Option.bind_some]
  rw [c1]
  simp only [Option.bind_some]
  rw [d1]
  simp only [Option.bind_some]
  congr 1
  refine forall₂_eq d2 fun o _ s hs => ?_
  have e : 0 + n1 * 16 + n2 * 8 + n3 * 4 + n4 * 1 = b.size := by omega
  rw [e] at hs
  obtain ⟨f, hs, he⟩ := hs
  rw [hs, hrsFinish_of, he]
  rfl

/-! ### `src/sse/cbcr8_hrs.rs` -/

/-- State of one row: even lanes add up to channel 0, odd lanes to channel 1. -/
def CbcrInv (w : List ℤ) (src : List ℕ) (b : Bounds) (o n : ℕ) (s : Reg) : Prop :=
  ∃ f : ℕ → ℤ, s = eightOf f ∧
    ∀ c, c < 2 → i16 (f c + f (2 + c) + (f (4 + c) + f (6 + c))) = lbAcc (wAll w) 2 src o b n c

theorem cbcr8_core {p : ℕ → ℕ} (hp : ∀ i, p i < 256) (f v : ℕ → ℤ) :
    add16 (add16 (eightOf f) (mulhrs16 (dupLo ((List.range 16).map p))
      (shuffle8 (ofLanes16 ((List.range 8).map v)) cbcrWeightsLo)))
      (mulhrs16 (dupHi ((List.range 16).map p))
      (shuffle8 (ofLanes16 ((List.range 8).map v)) cbcrWeightsHi)) =
      eightOf fun i => i16 (i16 (f i + lpTerm (p i) (i16 (v (i / 2)))) +
        lpTerm (p (8 + i)) (i16 (v (4 + i / 2)))) := by
  have e1 : lanes16 (shuffle8 (ofLanes16 ((List.range 8).map v)) cbcrWeightsLo) =
      [i16 (v 0), i16 (v 0), i16 (v 1), i16 (v 1), i16 (v 2), i16 (v 2), i16 (v 3), i16 (v 3)] := by
    show lanes16 (ofLanes16 [v 0, v 0, v 1, v 1, v 2, v 2, v 3, v 3]) = _
    rw [lanes16_ofLanes16]; rfl
  have e2 : lanes16 (shuffle8 (ofLanes16 ((List.range 8).map v)) cbcrWeightsHi) =
      [i16 (v 4), i16 (v 4), i16 (v 5), i16 (v 5), i16 (v 6), i16 (v 6), i16 (v 7), i16 (v 7)] := by
    show lanes16 (ofLanes16 [v 4, v 4, v 5, v 5, v 6, v 6, v 7, v 7]) = _
    rw [lanes16_ofLanes16]; rfl
  rw [dupLo_16, dupHi_16, mul_dup8 hp (fun i => i16 (v (i / 2))) e1,
    mul_dup8 (fun i => hp (8 + i)) (fun i => i16 (v (4 + i / 2))) e2, add_eight, add_eight]

theorem cbcr4_core {p : ℕ → ℕ} (hp : ∀ i, p i < 256) (f v : ℕ → ℤ) :
    add16 (eightOf f) (mulhrs16 (dupLo ((List.range 8).map p ++ List.replicate 8 0))
      (shuffle8 (ofLanes16 ((List.range 4).map v) ++ List.replicate 8 0) cbcrWeightsLo)) =
      eightOf fun i => i16 (f i + lpTerm (p i) (i16 (v (i / 2)))) := by
  have e1 : lanes16 (shuffle8 (ofLanes16 ((List.range 4).map v) ++ List.replicate 8 0) cbcrWeightsLo) =
      [i16 (v 0), i16 (v 0), i16 (v 1), i16 (v 1), i16 (v 2), i16 (v 2), i16 (v 3), i16 (v 3)] := by
    show lanes16 (ofLanes16 [v 0, v 0, v 1, v 1, v 2, v 2, v 3, v 3]) = _
    rw [lanes16_ofLanes16]; rfl
  rw [dupLo_8, mul_dup8 hp (fun i => i16 (v (i / 2))) e1, add_eight]

theorem cbcr2_core {p : ℕ → ℕ} (hp : ∀ i, p i < 256) (f v : ℕ → ℤ) :
    add16 (eightOf f) (mulhrs16 (dupLo ((List.range 4).map p ++ List.replicate 12 0))
      (shuffle8 (ofLanes16 ((List.range 2).map v) ++ List.replicate 12 0) cbcrWeightsLo)) =
      eightOf fun i => i16 (f i + lpTerm (if i < 4 then p i else 0)
        (if i < 4 then i16 (v (i / 2)) else 0)) := by
  have e1 : lanes16 (shuffle8 (ofLanes16 ((List.range 2).map v) ++ List.replicate 12 0) cbcrWeightsLo) =
      [i16 (v 0), i16 (v 0), i16 (v 1), i16 (v 1), i16 0, i16 0, i16 0, i16 0] := by
    show lanes16 (ofLanes16 [v 0, v 0, v 1, v 1, 0, 0, 0, 0]) = _
    rw [lanes16_ofLanes16]; rfl
  rw [dupLo_4, mul_dup8 (ite_lt hp) (fun i => if i < 4 then i16 (v (i / 2)) else 0) e1, add_eight]

theorem cbcr1_core {p : ℕ → ℕ} (hp : ∀ i, p i < 256) (f : ℕ → ℤ) (v : ℤ) :
    add16 (eightOf f) (mulhrs16 (dupLo ((List.range 2).map p ++ List.replicate 14 0))
      (shuffle8 (ofLanes16 [v] ++ List.replicate 14 0) cbcrWeightsLo)) =
      eightOf fun i => i16 (f i + lpTerm (if i < 2 then p i else 0) (if i < 2 then i16 v else 0)) := by
  have e1 : lanes16 (shuffle8 (ofLanes16 [v] ++ List.replicate 14 0) cbcrWeightsLo) =
      [i16 v, i16 v, i16 0, i16 0, i16 0, i16 0, i16 0, i16 0] := by
    show lanes16 (ofLanes16 [v, v, 0, 0, 0, 0, 0, 0]) = _
    rw [lanes16_ofLanes16]; rfl
  rw [dupLo_2, mul_dup8 (ite_lt hp) (fun i => if i < 2 then i16 v else 0) e1, add_eight]

theorem fin2 {P : ℕ → Prop} (h0 : P 0) (h1 : P 1) : ∀ c, c < 2 → P c := by
  intro c hc
  have : c = 0 ∨ c = 1 := by omega
  rcases this with rfl | rfl <;> assumption

theorem i16_quad (a b c d x y z t r : ℤ) (h : i16 (a + b + (c + d)) = r) :
    i16 (i16 (a + x) + i16 (b + y) + (i16 (c + z) + i16 (d + t))) = i16 (r + (x + y + z + t)) := by
  rw [i16_wide, ← h, i16_i16_add]
  congr 1
  ring

theorem cbcrHrs8_inv {src offs : List ℕ} {w : List ℤ} {b : Bounds} (h : HPre 2 src offs w b) {jx : ℕ}
    (hj : jx + 8 ≤ b.size) {o : ℕ} (ho : o ∈ offs) {s : Reg} (hs : CbcrInv w src b o jx s) :
    ∃ s', cbcrHrs8 src w b jx o s = some s' ∧ CbcrInv w src b o (jx + 8) s' := by
  have hr := h.room ho hj
  have := h.weights
  obtain ⟨f, hs, he⟩ := hs
  unfold cbcrHrs8 load128
  rw [loadWeights_eq (by omega), loadBytes_px0 (by norm_num) (by omega), hs]
  simp only [Nat.reduceMul, Nat.sub_self, List.replicate_zero, List.append_nil]
  refine ⟨_, rfl, _, cbcr8_core (fun i => pxb_lt 2 src o b (jx + i / 2) (i % 2)) f
    (fun k => w.getD (jx + k) 0), ?_⟩
  intro c hc
  have e4 : lbAcc (wAll w) 2 src o b (jx + 8) c = _ := lbAcc_add4 (wAll w) 2 src o b (jx + 4) c
  rw [i16_quad _ _ _ _ _ _ _ _ _ (i16_quad _ _ _ _ _ _ _ _ _ (he c hc)), e4, lbAcc_add4]
  have c0 : c / 2 = 0 ∧ c % 2 = c := by omega
  have c1 : (2 + c) / 2 = 1 ∧ (2 + c) % 2 = c := by omega
  have c2 : (4 + c) / 2 = 2 ∧ (4 + c) % 2 = c := by omega
  have c3 : (6 + c) / 2 = 3 ∧ (6 + c) % 2 = c := by omega
  have c4 : (8 + c) / 2 = 4 ∧ (8 + c) % 2 = c := by omega
  have c5 : (8 + (2 + c)) / 2 = 5 ∧ (8 + (2 + c)) % 2 = c := by omega
  have c6 : (8 + (4 + c)) / 2 = 6 ∧ (8 + (4 + c)) % 2 = c := by omega
  have c7 : (8 + (6 + c)) / 2 = 7 ∧ (8 + (6 + c)) % 2 = c := by omega
  simp only [wAll, c0, c1, c2, c3, c4, c5, c6, c7, Nat.add_zero, Nat.add_assoc, Nat.reduceAdd]

theorem cbcrHrs4_inv {src offs : List ℕ} {w : List ℤ} {b : Bounds} (h : HPre 2 src offs w b) {jx : ℕ}
    (hj : jx + 4 ≤ b.size) {o : ℕ} (ho : o ∈ offs) {s : Reg} (hs : CbcrInv w src b o jx s) :
    ∃ s', cbcrHrs4 src w b jx o s = some s' ∧ CbcrInv w src b o (jx + 4) s' := by
  have hr := h.room ho hj
  have := h.weights
  obtain ⟨f, hs, he⟩ := hs
  unfold cbcrHrs4 load64
  rw [loadWeights_eq (by omega), loadBytes_px0 (by norm_num) (by omega), hs]
  refine ⟨_, rfl, _, cbcr4_core (fun i => pxb_lt 2 src o b (jx + i / 2) (i % 2)) f
    (fun k => w.getD (jx + k) 0), ?_⟩
  intro c hc
  rw [i16_quad _ _ _ _ _ _ _ _ _ (he c hc), lbAcc_add4]
  have c0 : c / 2 = 0 ∧ c % 2 = c := by omega
  have c1 : (2 + c) / 2 = 1 ∧ (2 + c) % 2 = c := by omega
  have c2 : (4 + c) / 2 = 2 ∧ (4 + c) % 2 = c := by omega
  have c3 : (6 + c) / 2 = 3 ∧ (6 + c) % 2 = c := by omega
  simp only [wAll, c0, c1, c2, c3, Nat.add_zero]

theorem cbcrHrs2_inv {src offs : List ℕ} {w : List ℤ} {b : Bounds} (h : HPre 2 src offs w b) {jx : ℕ}
    (hj : jx + 2 ≤ b.size) {o : ℕ} (ho : o ∈ offs) {s : Reg} (hs : CbcrInv w src b o jx s) :
    ∃ s', cbcrHrs2 src w b jx o s = some s' ∧ CbcrInv w src b o (jx + 2) s' := by
  have hr := h.room ho hj
  have := h.weights
  obtain ⟨f, hs, he⟩ := hs
  unfold cbcrHrs2 load32
  rw [loadWeights_eq (by omega), loadBytes_px0 (by norm_num) (by omega), hs]
  refine ⟨_, rfl, _, cbcr2_core (fun i => pxb_lt 2 src o b (jx + i / 2) (i % 2)) f
    (fun k => w.getD (jx + k) 0), ?_⟩
  intro c hc
  rw [i16_quad _ _ _ _ _ _ _ _ _ (he c hc), lbAcc_add2]
  have c0 : c / 2 = 0 ∧ c % 2 = c := by omega
  have c1 : (2 + c) / 2 = 1 ∧ (2 + c) % 2 = c := by omega
  simp only [wAll, c0, c1, Nat.add_zero, if_pos (show c < 4 by omega), if_pos (show 2 + c < 4 by omega),
    if_neg (show ¬ 4 + c < 4 by omega), if_neg (show ¬ 6 + c < 4 by omega), lpTerm_zero, add_zero]

theorem cbcrHrs1_inv {src offs : List ℕ} {w : List ℤ} {b : Bounds} (h : HPre 2 src offs w b) {jx : ℕ}
    (hj : jx + 1 ≤ b.size) {o : ℕ} (ho : o ∈ offs) {s : Reg} (hs : CbcrInv w src b o jx s) :
    ∃ s', cbcrHrs1 src w b jx o s = some s' ∧ CbcrInv w src b o (jx + 1) s' := by
  have hr := h.room ho hj
  have := h.weights
  rw [← Nat.add_assoc, Nat.add_mul] at hr
  obtain ⟨f, hs, he⟩ := hs
  unfold cbcrHrs1 load16
  rw [loadWeights_eq (by omega), loadBytes_px0 (by norm_num) (by omega), hs]
  refine ⟨_, rfl, _, cbcr1_core (fun i => pxb_lt 2 src o b (jx + i / 2) (i % 2)) f
    (w.getD (jx + 0) 0), ?_⟩
  intro c hc
  rw [i16_quad _ _ _ _ _ _ _ _ _ (he c hc), lbAcc_succ]
  have c0 : c / 2 = 0 ∧ c % 2 = c := by omega
  simp only [wAll, c0, Nat.add_zero, if_pos hc, if_neg (show ¬ 2 + c < 2 by omega),
    if_neg (show ¬ 4 + c < 2 by omega), if_neg (show ¬ 6 + c < 2 by omega), lpTerm_zero, add_zero]

theorem cbcrFinish_of (f : ℕ → ℤ) : cbcrFinish (eightOf f) = (List.range 2).map fun c =>
    Spec.clamp 255 (i16 (f c + f (2 + c) + (f (4 + c) + f (6 + c))) >>> 6) := by
  unfold cbcrFinish
  have e1 : shuffle8 (eightOf f) [0, 1, 4, 5, 2, 3, 6, 7, 8, 9, 12, 13, 10, 11, 14, 15] =
      ofLanes16 [f 0, f 2, f 1, f 3, f 4, f 6, f 5, f 7] := rfl
  have e2 : ofLanes16 [f 0, f 2, f 1, f 3, f 4, f 6, f 5, f 7] =
      eightOf fun i => f (if i = 1 then 2 else if i = 2 then 1 else if i = 5 then 6 else
        if i = 6 then 5 else i) := rfl
  have e3 : ∀ g : ℕ → ℤ, shuffle32 [1, 0, 2, 3] (eightOf g) =
      eightOf fun i => g (if i = 0 then 2 else if i = 1 then 3 else if i = 2 then 0 else
        if i = 3 then 1 else i) := fun _ => rfl
  dsimp only
  rw [e1, e2, hadd_eight, e3, add_eight, lp_pack8]
  show [Spec.clamp 255 _, Spec.clamp 255 _] = [Spec.clamp 255 _, Spec.clamp 255 _]
  simp only [i16_i16, i16_i16_add, i16_add_i16]
  rfl

theorem cbcrSseHrs_spec {src offs : List ℕ} {w : List ℤ} {b : Bounds} (h : HPre 2 src offs w b) :
    cbcrSseHrs src offs w b =
      some (offs.map fun o => (List.range 2).map (lbVal (wAll w) 2 src o b)) := by
  have h0 := h.size
  obtain ⟨n1, s1, a1, a2, a3, a4, a5⟩ := rowsLoop_inv (P := CbcrInv w src b) (margin := 8)
    (step := 8) (size := b.size) (jx := 0) (offs := offs) (f := cbcrHrs8 src w b)
    (st := offs.map fun _ => setr16 [LP_ROUNDING, LP_ROUNDING, 0, 0, 0, 0, 0, 0]) (by omega) (by omega)
    (fun m hm o ho s hs => cbcrHrs8_inv h (by omega) ho hs) (by omega)
    (forall₂_init offs _ fun o _ => ⟨fun i => if i < 2 then 32 else 0, rfl, by
      intro c hc
      dsimp only
      rw [if_pos hc, if_neg (by omega), if_neg (by omega), if_neg (by omega)]
      simp [lbAcc]⟩)
  obtain ⟨n2, s2, b1, b2, b3, b4, b5⟩ := rowsLoop_inv (P := CbcrInv w src b) (margin := 4)
    (step := 4) (size := b.size) (jx := 0 + n1 * 8) (offs := offs) (f := cbcrHrs4 src w b)
    (st := s1) (by omega) (by omega)
    (fun m hm o ho s hs => cbcrHrs4_inv h (by omega) ho hs) (by omega) a2
  obtain ⟨n3, s3, c1, c2, c3, c4, c5⟩ := rowsLoop_inv (P := CbcrInv w src b) (margin := 2)
    (step := 2) (size := b.size) (jx := 0 + n1 * 8 + n2 * 4) (offs := offs) (f := cbcrHrs2 src w b)
    (st := s2) (by omega) (by omega)
    (fun m hm o ho s hs => cbcrHrs2_inv h (by omega) ho hs) (by omega) b2
  obtain ⟨n4, s4, d1, d2, d3, d4, d5⟩ := rowsLoop_inv (P := CbcrInv w src b) (margin := 0)
    (step := 1) (size := b.size) (jx := 0 + n1 * 8 + n2 * 4 + n3 * 2) (offs := offs)
    (f := cbcrHrs1 src w b) (st := s3) (by omega) (by omega)
    (fun m hm o ho s hs => cbcrHrs1_inv h (by omega) ho hs) (by omega) c2
  unfold cbcrSseHrs
  dsimp only
  rw [a1]
  simp only [Option.bind_eq_bind, Option.bind_some]
  rw [b1]
  simp only [Option.bind_some]
  rw [c1]
  simp only [Option.bind_some]
  rw [d1]
  simp only [Option.bind_some]
  congr 1
  refine forall₂_eq d2 fun o _ s hs => ?_
  have e : 0 + n1 * 8 + n2 * 4 + n3 * 2 + n4 * 1 = b.size := by omega
  rw [e] at hs
  obtain ⟨f, hs, he⟩ := hs
  rw [hs, cbcrFinish_of]
  apply List.map_congr_left
  intro c hc
  rw [he c (by simpa using hc)]
  rfl

end PicScale
