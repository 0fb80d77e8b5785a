import Verif.Lemmas.NeonLanes

/-! One iteration of each NEON loop adds the terms of its pixels. -/

namespace PicScale

open Finset Spec

theorem quad_getD (l : List ℕ) (i j : ℕ) (h : j < 4) : (quad l i).getD j 0 = l.getD (4 * i + j) 0 := by
  unfold quad
  simp [List.getD_eq_getElem?_getD, List.getElem?_take, h, List.getElem?_drop]

theorem octet_getDN (l : List ℕ) (i j : ℕ) (h : j < 8) : (octet l i).getD j 0 = l.getD (8 * i + j) 0 := by
  unfold octet
  simp [List.getD_eq_getElem?_getD, List.getElem?_take, h, List.getElem?_drop]

theorem octet_getDZ (l : List ℤ) (i j : ℕ) (h : j < 8) : (octet l i).getD j 0 = l.getD (8 * i + j) 0 := by
  unfold octet
  simp [List.getD_eq_getElem?_getD, List.getElem?_take, h, List.getElem?_drop]

theorem pxRange_getD (N : ℕ) (px : ℕ → ℕ → ℕ) (jx d n i : ℕ) (h : i < n) :
    (pxRange N px jx d n).getD i 0 = px (jx + (d + i) / N) ((d + i) % N) := by
  unfold pxRange
  simp [List.getD_eq_getElem?_getD, h]

theorem wRange_getD (w : List ℤ) (jx n i : ℕ) (h : i < n) : (wRange w jx n).getD i 0 = w.getD (jx + i) 0 := by
  unfold wRange
  simp [List.getD_eq_getElem?_getD, h]

theorem dropTake_getD (l : List ℤ) (a n j : ℕ) (h : j < n) : ((l.drop a).take n).getD j 0 = l.getD (a + j) 0 := by
  simp [List.getD_eq_getElem?_getD, List.getElem?_take, h, List.getElem?_drop]

theorem take_getD (l : List ℤ) (n j : ℕ) (h : j < n) : (l.take n).getD j 0 = l.getD j 0 := by
  simp [List.getD_eq_getElem?_getD, List.getElem?_take, h]

/-- All weights are `i16`. -/
def W16 (w : List ℤ) : Prop := ∀ k, -32768 ≤ w.getD k 0 ∧ w.getD k 0 ≤ 32767

/-- The lanes `I c` hold the sum of the first `jx` terms of channel `c`. -/
def StepInv (M : ℤ) (term : ℕ → ℤ → ℤ) (cost : ℤ → ℤ) (N : ℕ) (I : ℕ → List ℕ) (n : ℕ) (init : ℤ) (w : List ℤ)
    (px : ℕ → ℕ → ℕ) (jx : ℕ) (s : List ℤ) : Prop :=
  ∀ c, c < N → LaneSum M (I c) n s (init + ∑ k ∈ range jx, term (px k c) (w.getD k 0))
    (2 * init + ∑ k ∈ range jx, cost (w.getD k 0))

/-- A step of `m` pixels. -/
def StepAdds (M : ℤ) (term : ℕ → ℤ → ℤ) (cost : ℤ → ℤ) (N : ℕ) (I : ℕ → List ℕ) (n : ℕ) (w : List ℤ)
    (px : ℕ → ℕ → ℕ) (m : ℕ) (g : ℕ → List ℤ → List ℤ) : Prop :=
  ∀ c, c < N → ∀ jx s S B, LaneSum M (I c) n s S B →
    LaneSum M (I c) n (g jx s) (S + ∑ k ∈ range m, term (px (jx + k) c) (w.getD (jx + k) 0))
      (B + ∑ k ∈ range m, cost (w.getD (jx + k) 0))

theorem StepAdds.inv {M : ℤ} {term : ℕ → ℤ → ℤ} {cost : ℤ → ℤ} {N : ℕ} {I : ℕ → List ℕ} {n : ℕ} {init : ℤ}
    {w : List ℤ} {px : ℕ → ℕ → ℕ} {m : ℕ} {g : ℕ → List ℤ → List ℤ} (h : StepAdds M term cost N I n w px m g)
    (jx : ℕ) (s : List ℤ) (hi : StepInv M term cost N I n init w px jx s) :
    StepInv M term cost N I n init w px (jx + m) (g jx s) := by
  intro c hc
  refine (h c hc jx s _ _ (hi c hc)).cast ?_ ?_
  · rw [sum_range_add, add_assoc]
  · rw [sum_range_add, add_assoc]

section
variable {tap : ℤ → ℕ → ℤ → ℤ} {term : ℕ → ℤ → ℤ} {cost : ℤ → ℤ} {M : ℤ} {w : List ℤ} {px : ℕ → ℕ → ℕ}

/-- `LaneSum.vtapLane` for one lane. -/
theorem LaneSum.one (T : TapOK tap term cost M) {c n : ℕ} {s : List ℤ} {S B : ℤ} (h : LaneSum M [c] n s S B)
    {ps : List ℕ} {p : ℕ} {v : ℤ} (hc : c < n) (hl : ps.length = n) (e : ps.getD c 0 = p) (hp : p ≤ 255)
    (hv : -32768 ≤ v ∧ v ≤ 32767) :
    LaneSum M [c] n (PicScale.vtapLane tap s ps v) (S + term p v) (B + cost v) := by
  refine (h.vtapLane T (by simpa using hc) hl (by simp only [List.mem_singleton, forall_eq]; rw [e]; exact hp) hv).cast ?_ ?_
  · simp only [List.map_cons, List.map_nil, List.sum_cons, List.sum_nil, add_zero, e]
  · simp only [List.map_cons, List.map_nil, List.sum_cons, List.sum_nil, add_zero]

/-- `LaneSum.vtap` with the lane values given. -/
theorem LaneSum.many (T : TapOK tap term cost M) {I : List ℕ} {n : ℕ} {s : List ℤ} {S B : ℤ}
    (h : LaneSum M I n s S B) {ps : List ℕ} {ws : List ℤ} (P : ℕ → ℕ) (V : ℕ → ℤ)
    (hI : ∀ i ∈ I, i < n) (hps : ps.length = n) (hws : ws.length = n)
    (e : ∀ i ∈ I, ps.getD i 0 = P i ∧ ws.getD i 0 = V i)
    (hp : ∀ i ∈ I, P i ≤ 255) (hw : ∀ i ∈ I, -32768 ≤ V i ∧ V i ≤ 32767) :
    LaneSum M I n (PicScale.vtap tap s ps ws) (S + (I.map fun i => term (P i) (V i)).sum)
      (B + (I.map fun i => cost (V i)).sum) := by
  refine (h.vtap T hI hps hws (fun i hi => by rw [(e i hi).1]; exact hp i hi)
    (fun i hi => by rw [(e i hi).2]; exact hw i hi)).cast ?_ ?_
  · congr 2
    apply List.map_congr_left
    intro i hi
    rw [(e i hi).1, (e i hi).2]
  · congr 2
    apply List.map_congr_left
    intro i hi
    rw [(e i hi).2]

theorem rgbaNeon8_adds (D : Bool) (T : TapOK (tapX D) term cost M) (hw : W16 w) (hp : ∀ k c, px k c ≤ 255) :
    StepAdds M term cost 4 (fun c => [c]) 4 w px 8 (step2 4 8 16 16 (rgbaNeonCore8 D) w px) := by
  intro c hc jx s S B h
  have h := h.one T (ps := quad (pxRange 4 px jx 0 16) 3) (p := px (jx + 3) c) (v := w.getD (jx + 3) 0) (by omega) rfl
    (by interval_cases c <;> rfl) (hp _ _) (hw _)
  have h := h.one T (ps := quad (pxRange 4 px jx 0 16) 2) (p := px (jx + 2) c) (v := w.getD (jx + 2) 0) (by omega) rfl
    (by interval_cases c <;> rfl) (hp _ _) (hw _)
  have h := h.one T (ps := quad (pxRange 4 px jx 0 16) 1) (p := px (jx + 1) c) (v := w.getD (jx + 1) 0) (by omega) rfl
    (by interval_cases c <;> rfl) (hp _ _) (hw _)
  have h := h.one T (ps := quad (pxRange 4 px jx 0 16) 0) (p := px (jx + 0) c) (v := w.getD (jx + 0) 0) (by omega) rfl
    (by interval_cases c <;> rfl) (hp _ _) (hw _)
  have h := h.one T (ps := quad (pxRange 4 px jx 16 16) 3) (p := px (jx + 7) c) (v := w.getD (jx + 7) 0) (by omega) rfl
    (by interval_cases c <;> rfl) (hp _ _) (hw _)
  have h := h.one T (ps := quad (pxRange 4 px jx 16 16) 2) (p := px (jx + 6) c) (v := w.getD (jx + 6) 0) (by omega) rfl
    (by interval_cases c <;> rfl) (hp _ _) (hw _)
  have h := h.one T (ps := quad (pxRange 4 px jx 16 16) 1) (p := px (jx + 5) c) (v := w.getD (jx + 5) 0) (by omega) rfl
    (by interval_cases c <;> rfl) (hp _ _) (hw _)
  have h := h.one T (ps := quad (pxRange 4 px jx 16 16) 0) (p := px (jx + 4) c) (v := w.getD (jx + 4) 0) (by omega) rfl
    (by interval_cases c <;> rfl) (hp _ _) (hw _)
  refine h.cast ?_ ?_
  · simp only [sum_range_succ, sum_range_zero, zero_add]
    ring
  · simp only [sum_range_succ, sum_range_zero, zero_add]
    ring

theorem rgbaNeon4_adds (D : Bool) (T : TapOK (tapX D) term cost M) (hw : W16 w) (hp : ∀ k c, px k c ≤ 255) :
    StepAdds M term cost 4 (fun c => [c]) 4 w px 4 (step1 4 4 16 (rgbaNeonCore4 D) w px) := by
  intro c hc jx s S B h
  have h := h.one T (ps := quad (pxRange 4 px jx 0 16) 3) (p := px (jx + 3) c) (v := w.getD (jx + 3) 0) (by omega) rfl
    (by interval_cases c <;> rfl) (hp _ _) (hw _)
  have h := h.one T (ps := quad (pxRange 4 px jx 0 16) 2) (p := px (jx + 2) c) (v := w.getD (jx + 2) 0) (by omega) rfl
    (by interval_cases c <;> rfl) (hp _ _) (hw _)
  have h := h.one T (ps := quad (pxRange 4 px jx 0 16) 1) (p := px (jx + 1) c) (v := w.getD (jx + 1) 0) (by omega) rfl
    (by interval_cases c <;> rfl) (hp _ _) (hw _)
  have h := h.one T (ps := quad (pxRange 4 px jx 0 16) 0) (p := px (jx + 0) c) (v := w.getD (jx + 0) 0) (by omega) rfl
    (by interval_cases c <;> rfl) (hp _ _) (hw _)
  refine h.cast ?_ ?_
  · simp only [sum_range_succ, sum_range_zero, zero_add]
    ring
  · simp only [sum_range_succ, sum_range_zero, zero_add]
    ring

theorem rgbaNeon2_adds (D : Bool) (T : TapOK (tapX D) term cost M) (hw : W16 w) (hp : ∀ k c, px k c ≤ 255) :
    StepAdds M term cost 4 (fun c => [c]) 4 w px 2 (step1 4 2 8 (rgbaNeonCore2 D) w px) := by
  intro c hc jx s S B h
  have h := h.one T (ps := quad (pxRange 4 px jx 0 8) 1) (p := px (jx + 1) c) (v := w.getD (jx + 1) 0) (by omega) rfl
    (by interval_cases c <;> rfl) (hp _ _) (hw _)
  have h := h.one T (ps := quad (pxRange 4 px jx 0 8) 0) (p := px (jx + 0) c) (v := w.getD (jx + 0) 0) (by omega) rfl
    (by interval_cases c <;> rfl) (hp _ _) (hw _)
  refine h.cast ?_ ?_
  · simp only [sum_range_succ, sum_range_zero, zero_add]
    ring
  · simp only [sum_range_succ, sum_range_zero, zero_add]
    ring

theorem rgbaNeon1_adds (D : Bool) (T : TapOK (tapX D) term cost M) (hw : W16 w) (hp : ∀ k c, px k c ≤ 255) :
    StepAdds M term cost 4 (fun c => [c]) 4 w px 1 (step1 4 1 4 (rgbaNeonCore1 D) w px) := by
  intro c hc jx s S B h
  have h := h.one T (ps := pxRange 4 px jx 0 4) (p := px (jx + 0) c) (v := w.getD (jx + 0) 0) (by omega) rfl
    (by interval_cases c <;> rfl) (hp _ _) (hw _)
  refine h.cast ?_ ?_
  · simp only [sum_range_succ, sum_range_zero, zero_add]
  · simp only [sum_range_succ, sum_range_zero, zero_add]

theorem rgbNeon4_adds (D : Bool) (T : TapOK (tapX D) term cost M) (hw : W16 w) (hp : ∀ k c, px k c ≤ 255) :
    StepAdds M term cost 3 (fun c => [c]) 4 w px 4 (step2 3 4 8 4 (rgbNeonCore4 D) w px) := by
  intro c hc jx s S B h
  have h := h.one T (ps := quad (tblB (pxRange 3 px jx 0 8 ++ pxRange 3 px jx 8 4 ++ [0, 0, 0, 0]) rgbNeonShuffle) 3) (p := px (jx + 3) c) (v := w.getD (jx + 3) 0) (by omega) rfl
    (by interval_cases c <;> rfl) (hp _ _) (hw _)
  have h := h.one T (ps := quad (tblB (pxRange 3 px jx 0 8 ++ pxRange 3 px jx 8 4 ++ [0, 0, 0, 0]) rgbNeonShuffle) 2) (p := px (jx + 2) c) (v := w.getD (jx + 2) 0) (by omega) rfl
    (by interval_cases c <;> rfl) (hp _ _) (hw _)
  have h := h.one T (ps := quad (tblB (pxRange 3 px jx 0 8 ++ pxRange 3 px jx 8 4 ++ [0, 0, 0, 0]) rgbNeonShuffle) 1) (p := px (jx + 1) c) (v := w.getD (jx + 1) 0) (by omega) rfl
    (by interval_cases c <;> rfl) (hp _ _) (hw _)
  have h := h.one T (ps := quad (tblB (pxRange 3 px jx 0 8 ++ pxRange 3 px jx 8 4 ++ [0, 0, 0, 0]) rgbNeonShuffle) 0) (p := px (jx + 0) c) (v := w.getD (jx + 0) 0) (by omega) rfl
    (by interval_cases c <;> rfl) (hp _ _) (hw _)
  refine h.cast ?_ ?_
  · simp only [sum_range_succ, sum_range_zero, zero_add]
    ring
  · simp only [sum_range_succ, sum_range_zero, zero_add]
    ring

theorem rgbNeon2_adds (D : Bool) (T : TapOK (tapX D) term cost M) (hw : W16 w) (hp : ∀ k c, px k c ≤ 255) :
    StepAdds M term cost 3 (fun c => [c]) 4 w px 2 (step2 3 2 4 2 (rgbNeonCore2 D) w px) := by
  intro c hc jx s S B h
  have h := h.one T (ps := quad (tblB (pxRange 3 px jx 0 4 ++ pxRange 3 px jx 4 2 ++ [0, 0]) (rgbNeonShuffle.take 8)) 1) (p := px (jx + 1) c) (v := w.getD (jx + 1) 0) (by omega) rfl
    (by interval_cases c <;> rfl) (hp _ _) (hw _)
  have h := h.one T (ps := quad (tblB (pxRange 3 px jx 0 4 ++ pxRange 3 px jx 4 2 ++ [0, 0]) (rgbNeonShuffle.take 8)) 0) (p := px (jx + 0) c) (v := w.getD (jx + 0) 0) (by omega) rfl
    (by interval_cases c <;> rfl) (hp _ _) (hw _)
  refine h.cast ?_ ?_
  · simp only [sum_range_succ, sum_range_zero, zero_add]
    ring
  · simp only [sum_range_succ, sum_range_zero, zero_add]
    ring

theorem rgbNeon1_adds (D : Bool) (T : TapOK (tapX D) term cost M) (hw : W16 w) (hp : ∀ k c, px k c ≤ 255) :
    StepAdds M term cost 3 (fun c => [c]) 4 w px 1 (step2 3 1 2 1 (rgbNeonCore1 D) w px) := by
  intro c hc jx s S B h
  have h := h.one T (ps := pxRange 3 px jx 0 2 ++ pxRange 3 px jx 2 1 ++ [0]) (p := px (jx + 0) c) (v := w.getD (jx + 0) 0) (by omega) rfl
    (by interval_cases c <;> rfl) (hp _ _) (hw _)
  refine h.cast ?_ ?_
  · simp only [sum_range_succ, sum_range_zero, zero_add]
  · simp only [sum_range_succ, sum_range_zero, zero_add]

theorem rdmCost_zero : rdmCost 0 = 0 := rfl

theorem ite_byte {q : Prop} [Decidable q] {p : ℕ} (h : p ≤ 255) : (if q then p else 0) ≤ 255 := by
  split_ifs <;> omega

theorem ite_i16 {q : Prop} [Decidable q] {v : ℤ} (h : -32768 ≤ v ∧ v ≤ 32767) :
    -32768 ≤ (if q then v else 0) ∧ (if q then v else 0) ≤ 32767 := by
  split_ifs <;> omega

theorem planeNeon16_adds (D : Bool) (T : TapOK (tapX D) term cost M) (hw : W16 w) (hp : ∀ k c, px k c ≤ 255) :
    StepAdds M term cost 1 (fun _ => List.range 4) 4 w px 16 (step1 1 16 16 (planeNeonCore16 D) w px) := by
  intro c hc jx s S B h
  have h := h.many T (ps := quad (pxRange 1 px jx 0 16) 3)
    (ws := ((wRange w jx 16).drop 12).take 4)
    (fun i => px (jx + (12 + i)) 0) (fun i => w.getD (jx + (12 + i)) 0)
    (by intro i hi; simpa using hi) rfl rfl
    (by intro i hi; have hi : i < 4 := by simpa using hi
        interval_cases i <;> exact ⟨rfl, rfl⟩)
    (fun i _ => hp _ _) (fun i _ => hw _)
  have h := h.many T (ps := quad (pxRange 1 px jx 0 16) 2)
    (ws := ((wRange w jx 16).drop 8).take 4)
    (fun i => px (jx + (8 + i)) 0) (fun i => w.getD (jx + (8 + i)) 0)
    (by intro i hi; simpa using hi) rfl rfl
    (by intro i hi; have hi : i < 4 := by simpa using hi
        interval_cases i <;> exact ⟨rfl, rfl⟩)
    (fun i _ => hp _ _) (fun i _ => hw _)
  have h := h.many T (ps := quad (pxRange 1 px jx 0 16) 1)
    (ws := ((wRange w jx 16).drop 4).take 4)
    (fun i => px (jx + (4 + i)) 0) (fun i => w.getD (jx + (4 + i)) 0)
    (by intro i hi; simpa using hi) rfl rfl
    (by intro i hi; have hi : i < 4 := by simpa using hi
        interval_cases i <;> exact ⟨rfl, rfl⟩)
    (fun i _ => hp _ _) (fun i _ => hw _)
  have h := h.many T (ps := quad (pxRange 1 px jx 0 16) 0)
    (ws := (wRange w jx 16).take 4)
    (fun i => px (jx + (0 + i)) 0) (fun i => w.getD (jx + (0 + i)) 0)
    (by intro i hi; simpa using hi) rfl rfl
    (by intro i hi; have hi : i < 4 := by simpa using hi
        interval_cases i <;> exact ⟨rfl, rfl⟩)
    (fun i _ => hp _ _) (fun i _ => hw _)
  obtain rfl : c = 0 := by omega
  refine h.cast ?_ ?_
  · simp [sum_range_succ, List.range_succ, lowTerm_zero]; try ring
  · simp [sum_range_succ, List.range_succ, rdmCost_zero]; try ring

theorem planeNeon8_adds (D : Bool) (T : TapOK (tapX D) term cost M) (hw : W16 w) (hp : ∀ k c, px k c ≤ 255) :
    StepAdds M term cost 1 (fun _ => List.range 4) 4 w px 8 (step1 1 8 8 (planeNeonCore8 D) w px) := by
  intro c hc jx s S B h
  have h := h.many T (ps := quad (pxRange 1 px jx 0 8) 1)
    (ws := ((wRange w jx 8).drop 4).take 4)
    (fun i => px (jx + (4 + i)) 0) (fun i => w.getD (jx + (4 + i)) 0)
    (by intro i hi; simpa using hi) rfl rfl
    (by intro i hi; have hi : i < 4 := by simpa using hi
        interval_cases i <;> exact ⟨rfl, rfl⟩)
    (fun i _ => hp _ _) (fun i _ => hw _)
  have h := h.many T (ps := quad (pxRange 1 px jx 0 8) 0)
    (ws := (wRange w jx 8).take 4)
    (fun i => px (jx + (0 + i)) 0) (fun i => w.getD (jx + (0 + i)) 0)
    (by intro i hi; simpa using hi) rfl rfl
    (by intro i hi; have hi : i < 4 := by simpa using hi
        interval_cases i <;> exact ⟨rfl, rfl⟩)
    (fun i _ => hp _ _) (fun i _ => hw _)
  obtain rfl : c = 0 := by omega
  refine h.cast ?_ ?_
  · simp [sum_range_succ, List.range_succ, lowTerm_zero]; try ring
  · simp [sum_range_succ, List.range_succ, rdmCost_zero]; try ring

theorem rgbaRdm8_adds (hw : W16 w) (hp : ∀ k c, px k c ≤ 255) :
    StepAdds 65535 lowTerm rdmCost 4 (fun c => [c, c + 4]) 8 w px 8 (step2 4 8 16 16 rgbaRdmCore8 w px) := by
  intro c hc jx s S B h
  have h := h.many tapR_ok (ps := octet (pxRange 4 px jx 0 16) 0)
    (ws := tblW (wRange w jx 8) (rdmPair 0))
    (fun i => px (jx + (0 + i / 4)) (i % 4)) (fun i => w.getD (jx + (0 + i / 4)) 0)
    (by intro i hi; simp only [List.mem_cons, List.not_mem_nil, or_false] at hi; omega) rfl rfl
    (by interval_cases c <;> (simp only [List.mem_cons, List.not_mem_nil, or_false]; rintro i hi; rcases hi with rfl | rfl <;> exact ⟨rfl, rfl⟩))
    (fun i _ => hp _ _) (fun i _ => hw _)
  have h := h.many tapR_ok (ps := octet (pxRange 4 px jx 0 16) 1)
    (ws := tblW (wRange w jx 8) (rdmPair 1))
    (fun i => px (jx + (2 + i / 4)) (i % 4)) (fun i => w.getD (jx + (2 + i / 4)) 0)
    (by intro i hi; simp only [List.mem_cons, List.not_mem_nil, or_false] at hi; omega) rfl rfl
    (by interval_cases c <;> (simp only [List.mem_cons, List.not_mem_nil, or_false]; rintro i hi; rcases hi with rfl | rfl <;> exact ⟨rfl, rfl⟩))
    (fun i _ => hp _ _) (fun i _ => hw _)
  have h := h.many tapR_ok (ps := octet (pxRange 4 px jx 16 16) 0)
    (ws := tblW (wRange w jx 8) (rdmPair 2))
    (fun i => px (jx + (4 + i / 4)) (i % 4)) (fun i => w.getD (jx + (4 + i / 4)) 0)
    (by intro i hi; simp only [List.mem_cons, List.not_mem_nil, or_false] at hi; omega) rfl rfl
    (by interval_cases c <;> (simp only [List.mem_cons, List.not_mem_nil, or_false]; rintro i hi; rcases hi with rfl | rfl <;> exact ⟨rfl, rfl⟩))
    (fun i _ => hp _ _) (fun i _ => hw _)
  have h := h.many tapR_ok (ps := octet (pxRange 4 px jx 16 16) 1)
    (ws := tblW (wRange w jx 8) (rdmPair 3))
    (fun i => px (jx + (6 + i / 4)) (i % 4)) (fun i => w.getD (jx + (6 + i / 4)) 0)
    (by intro i hi; simp only [List.mem_cons, List.not_mem_nil, or_false] at hi; omega) rfl rfl
    (by interval_cases c <;> (simp only [List.mem_cons, List.not_mem_nil, or_false]; rintro i hi; rcases hi with rfl | rfl <;> exact ⟨rfl, rfl⟩))
    (fun i _ => hp _ _) (fun i _ => hw _)
  refine h.cast ?_ ?_
  · interval_cases c <;> (simp [sum_range_succ, lowTerm_zero]; try ring)
  · interval_cases c <;> (simp [sum_range_succ, rdmCost_zero]; try ring)

theorem rgbaRdm4_adds (hw : W16 w) (hp : ∀ k c, px k c ≤ 255) :
    StepAdds 65535 lowTerm rdmCost 4 (fun c => [c, c + 4]) 8 w px 4 (step1 4 4 16 rgbaRdmCore4 w px) := by
  intro c hc jx s S B h
  have h := h.many tapR_ok (ps := octet (pxRange 4 px jx 0 16) 0)
    (ws := tblW (wRange w jx 4) (rdmPair 0))
    (fun i => px (jx + (0 + i / 4)) (i % 4)) (fun i => w.getD (jx + (0 + i / 4)) 0)
    (by intro i hi; simp only [List.mem_cons, List.not_mem_nil, or_false] at hi; omega) rfl rfl
    (by interval_cases c <;> (simp only [List.mem_cons, List.not_mem_nil, or_false]; rintro i hi; rcases hi with rfl | rfl <;> exact ⟨rfl, rfl⟩))
    (fun i _ => hp _ _) (fun i _ => hw _)
  have h := h.many tapR_ok (ps := octet (pxRange 4 px jx 0 16) 1)
    (ws := tblW (wRange w jx 4) (rdmPair 1))
    (fun i => px (jx + (2 + i / 4)) (i % 4)) (fun i => w.getD (jx + (2 + i / 4)) 0)
    (by intro i hi; simp only [List.mem_cons, List.not_mem_nil, or_false] at hi; omega) rfl rfl
    (by interval_cases c <;> (simp only [List.mem_cons, List.not_mem_nil, or_false]; rintro i hi; rcases hi with rfl | rfl <;> exact ⟨rfl, rfl⟩))
    (fun i _ => hp _ _) (fun i _ => hw _)
  refine h.cast ?_ ?_
  · interval_cases c <;> (simp [sum_range_succ, lowTerm_zero]; try ring)
  · interval_cases c <;> (simp [sum_range_succ, rdmCost_zero]; try ring)

theorem rgbaRdm2_adds (hw : W16 w) (hp : ∀ k c, px k c ≤ 255) :
    StepAdds 65535 lowTerm rdmCost 4 (fun c => [c, c + 4]) 8 w px 2 (step1 4 2 8 rgbaRdmCore2 w px) := by
  intro c hc jx s S B h
  have h := h.many tapR_ok (ps := pxRange 4 px jx 0 8)
    (ws := tblW (wRange w jx 2) (rdmPair 0))
    (fun i => px (jx + (0 + i / 4)) (i % 4)) (fun i => w.getD (jx + (0 + i / 4)) 0)
    (by intro i hi; simp only [List.mem_cons, List.not_mem_nil, or_false] at hi; omega) rfl rfl
    (by interval_cases c <;> (simp only [List.mem_cons, List.not_mem_nil, or_false]; rintro i hi; rcases hi with rfl | rfl <;> exact ⟨rfl, rfl⟩))
    (fun i _ => hp _ _) (fun i _ => hw _)
  refine h.cast ?_ ?_
  · interval_cases c <;> (simp [sum_range_succ, lowTerm_zero]; try ring)
  · interval_cases c <;> (simp [sum_range_succ, rdmCost_zero]; try ring)

theorem rgbRdm4_adds (hw : W16 w) (hp : ∀ k c, px k c ≤ 255) :
    StepAdds 65535 lowTerm rdmCost 3 (fun c => [c, c + 4]) 8 w px 4 (step2 3 4 8 4 rgbRdmCore4 w px) := by
  intro c hc jx s S B h
  have h := h.many tapR_ok (ps := tblB (pxRange 3 px jx 0 8 ++ pxRange 3 px jx 8 4 ++ [0, 0, 0, 0]) rgbRdmShuffleLo)
    (ws := tblW (wRange w jx 4) (rgbRdmPair 0))
    (fun i => px (jx + (0 + i / 4)) (i % 4)) (fun i => w.getD (jx + (0 + i / 4)) 0)
    (by intro i hi; simp only [List.mem_cons, List.not_mem_nil, or_false] at hi; omega) rfl rfl
    (by interval_cases c <;> (simp only [List.mem_cons, List.not_mem_nil, or_false]; rintro i hi; rcases hi with rfl | rfl <;> exact ⟨rfl, rfl⟩))
    (fun i _ => hp _ _) (fun i _ => hw _)
  have h := h.many tapR_ok (ps := tblB (pxRange 3 px jx 0 8 ++ pxRange 3 px jx 8 4 ++ [0, 0, 0, 0]) rgbRdmShuffleHi)
    (ws := tblW (wRange w jx 4) (rgbRdmPair 1))
    (fun i => px (jx + (2 + i / 4)) (i % 4)) (fun i => w.getD (jx + (2 + i / 4)) 0)
    (by intro i hi; simp only [List.mem_cons, List.not_mem_nil, or_false] at hi; omega) rfl rfl
    (by interval_cases c <;> (simp only [List.mem_cons, List.not_mem_nil, or_false]; rintro i hi; rcases hi with rfl | rfl <;> exact ⟨rfl, rfl⟩))
    (fun i _ => hp _ _) (fun i _ => hw _)
  refine h.cast ?_ ?_
  · interval_cases c <;> (simp [sum_range_succ, lowTerm_zero]; try ring)
  · interval_cases c <;> (simp [sum_range_succ, rdmCost_zero]; try ring)

theorem rgbRdm2_adds (hw : W16 w) (hp : ∀ k c, px k c ≤ 255) :
    StepAdds 65535 lowTerm rdmCost 3 (fun c => [c, c + 4]) 8 w px 2 (step2 3 2 4 2 rgbRdmCore2 w px) := by
  intro c hc jx s S B h
  have h := h.many tapR_ok (ps := tblB (pxRange 3 px jx 0 4 ++ pxRange 3 px jx 4 2 ++ List.replicate 10 0) rgbRdmShuffleLo)
    (ws := tblW (wRange w jx 2) (rgbRdmPair 0))
    (fun i => px (jx + (0 + i / 4)) (i % 4)) (fun i => w.getD (jx + (0 + i / 4)) 0)
    (by intro i hi; simp only [List.mem_cons, List.not_mem_nil, or_false] at hi; omega) rfl rfl
    (by interval_cases c <;> (simp only [List.mem_cons, List.not_mem_nil, or_false]; rintro i hi; rcases hi with rfl | rfl <;> exact ⟨rfl, rfl⟩))
    (fun i _ => hp _ _) (fun i _ => hw _)
  refine h.cast ?_ ?_
  · interval_cases c <;> (simp [sum_range_succ, lowTerm_zero]; try ring)
  · interval_cases c <;> (simp [sum_range_succ, rdmCost_zero]; try ring)

theorem rgbRdm1_adds (hw : W16 w) (hp : ∀ k c, px k c ≤ 255) :
    StepAdds 65535 lowTerm rdmCost 3 (fun c => [c, c + 4]) 8 w px 1 (step2 3 1 2 1 rgbRdmCore1 w px) := by
  intro c hc jx s S B h
  have h := h.many tapR_ok (ps := tblB (pxRange 3 px jx 0 2 ++ pxRange 3 px jx 2 1 ++ List.replicate 13 0) rgbRdmShuffleLo)
    (ws := List.replicate 4 ((wRange w jx 1).getD 0 0) ++ List.replicate 4 0)
    (fun i => if i < 4 then px jx i else 0) (fun i => if i < 4 then w.getD jx 0 else 0)
    (by intro i hi; simp only [List.mem_cons, List.not_mem_nil, or_false] at hi; omega) rfl rfl
    (by interval_cases c <;> (simp only [List.mem_cons, List.not_mem_nil, or_false]; rintro i hi; rcases hi with rfl | rfl <;> exact ⟨rfl, rfl⟩))
    (fun i _ => ite_byte (hp _ _)) (fun i _ => ite_i16 (hw _))
  refine h.cast ?_ ?_
  · interval_cases c <;> (simp [sum_range_succ, lowTerm_zero]; try ring)
  · interval_cases c <;> (simp [sum_range_succ, rdmCost_zero]; try ring)

theorem planeRdm32_adds (hw : W16 w) (hp : ∀ k c, px k c ≤ 255) :
    StepAdds 65535 lowTerm rdmCost 1 (fun _ => List.range 8) 8 w px 32 (step2 1 32 16 16 planeRdmCore32 w px) := by
  intro c hc jx s S B h
  have h := h.many tapR_ok (ps := octet (pxRange 1 px jx 0 16) 0)
    (ws := octet (wRange w jx 32) 0)
    (fun i => px (jx + (0 + i)) 0) (fun i => w.getD (jx + (0 + i)) 0)
    (by intro i hi; simpa using hi) rfl rfl
    (by intro i hi; have hi : i < 8 := by simpa using hi
        interval_cases i <;> exact ⟨rfl, rfl⟩)
    (fun i _ => hp _ _) (fun i _ => hw _)
  have h := h.many tapR_ok (ps := octet (pxRange 1 px jx 0 16) 1)
    (ws := octet (wRange w jx 32) 1)
    (fun i => px (jx + (8 + i)) 0) (fun i => w.getD (jx + (8 + i)) 0)
    (by intro i hi; simpa using hi) rfl rfl
    (by intro i hi; have hi : i < 8 := by simpa using hi
        interval_cases i <;> exact ⟨rfl, rfl⟩)
    (fun i _ => hp _ _) (fun i _ => hw _)
  have h := h.many tapR_ok (ps := octet (pxRange 1 px jx 16 16) 0)
    (ws := octet (wRange w jx 32) 2)
    (fun i => px (jx + (16 + i)) 0) (fun i => w.getD (jx + (16 + i)) 0)
    (by intro i hi; simpa using hi) rfl rfl
    (by intro i hi; have hi : i < 8 := by simpa using hi
        interval_cases i <;> exact ⟨rfl, rfl⟩)
    (fun i _ => hp _ _) (fun i _ => hw _)
  have h := h.many tapR_ok (ps := octet (pxRange 1 px jx 16 16) 1)
    (ws := octet (wRange w jx 32) 3)
    (fun i => px (jx + (24 + i)) 0) (fun i => w.getD (jx + (24 + i)) 0)
    (by intro i hi; simpa using hi) rfl rfl
    (by intro i hi; have hi : i < 8 := by simpa using hi
        interval_cases i <;> exact ⟨rfl, rfl⟩)
    (fun i _ => hp _ _) (fun i _ => hw _)
  obtain rfl : c = 0 := by omega
  refine h.cast ?_ ?_
  · simp [sum_range_succ, List.range_succ, lowTerm_zero]; try ring
  · simp [sum_range_succ, List.range_succ, rdmCost_zero]; try ring

theorem planeRdm16_adds (hw : W16 w) (hp : ∀ k c, px k c ≤ 255) :
    StepAdds 65535 lowTerm rdmCost 1 (fun _ => List.range 8) 8 w px 16 (step1 1 16 16 planeRdmCore16 w px) := by
  intro c hc jx s S B h
  have h := h.many tapR_ok (ps := octet (pxRange 1 px jx 0 16) 0)
    (ws := octet (wRange w jx 16) 0)
    (fun i => px (jx + (0 + i)) 0) (fun i => w.getD (jx + (0 + i)) 0)
    (by intro i hi; simpa using hi) rfl rfl
    (by intro i hi; have hi : i < 8 := by simpa using hi
        interval_cases i <;> exact ⟨rfl, rfl⟩)
    (fun i _ => hp _ _) (fun i _ => hw _)
  have h := h.many tapR_ok (ps := octet (pxRange 1 px jx 0 16) 1)
    (ws := octet (wRange w jx 16) 1)
    (fun i => px (jx + (8 + i)) 0) (fun i => w.getD (jx + (8 + i)) 0)
    (by intro i hi; simpa using hi) rfl rfl
    (by intro i hi; have hi : i < 8 := by simpa using hi
        interval_cases i <;> exact ⟨rfl, rfl⟩)
    (fun i _ => hp _ _) (fun i _ => hw _)
  obtain rfl : c = 0 := by omega
  refine h.cast ?_ ?_
  · simp [sum_range_succ, List.range_succ, lowTerm_zero]; try ring
  · simp [sum_range_succ, List.range_succ, rdmCost_zero]; try ring

theorem planeRdm8_adds (hw : W16 w) (hp : ∀ k c, px k c ≤ 255) :
    StepAdds 65535 lowTerm rdmCost 1 (fun _ => List.range 8) 8 w px 8 (step1 1 8 8 planeRdmCore8 w px) := by
  intro c hc jx s S B h
  have h := h.many tapR_ok (ps := pxRange 1 px jx 0 8)
    (ws := wRange w jx 8)
    (fun i => px (jx + i) 0) (fun i => w.getD (jx + i) 0)
    (by intro i hi; simpa using hi) rfl rfl
    (by intro i hi; have hi : i < 8 := by simpa using hi
        interval_cases i <;> exact ⟨rfl, rfl⟩)
    (fun i _ => hp _ _) (fun i _ => hw _)
  obtain rfl : c = 0 := by omega
  refine h.cast ?_ ?_
  · simp [sum_range_succ, List.range_succ, lowTerm_zero]; try ring
  · simp [sum_range_succ, List.range_succ, rdmCost_zero]; try ring

theorem planeRdm4_adds (hw : W16 w) (hp : ∀ k c, px k c ≤ 255) :
    StepAdds 65535 lowTerm rdmCost 1 (fun _ => List.range 8) 8 w px 4 (step1 1 4 4 planeRdmCore4 w px) := by
  intro c hc jx s S B h
  have h := h.many tapR_ok (ps := pxRange 1 px jx 0 4 ++ List.replicate 4 0)
    (ws := wRange w jx 4 ++ List.replicate 4 0)
    (fun i => if i < 4 then px (jx + i) 0 else 0) (fun i => if i < 4 then w.getD (jx + i) 0 else 0)
    (by intro i hi; simpa using hi) rfl rfl
    (by intro i hi; have hi : i < 8 := by simpa using hi
        interval_cases i <;> exact ⟨rfl, rfl⟩)
    (fun i _ => ite_byte (hp _ _)) (fun i _ => ite_i16 (hw _))
  obtain rfl : c = 0 := by omega
  refine h.cast ?_ ?_
  · simp [sum_range_succ, List.range_succ, lowTerm_zero]; try ring
  · simp [sum_range_succ, List.range_succ, rdmCost_zero]; try ring

theorem planeRdm1_adds (hw : W16 w) (hp : ∀ k c, px k c ≤ 255) :
    StepAdds 65535 lowTerm rdmCost 1 (fun _ => List.range 8) 8 w px 1 (step1 1 1 1 planeRdmCore1 w px) := by
  intro c hc jx s S B h
  have h := h.many tapR_ok (ps := pxRange 1 px jx 0 1 ++ List.replicate 7 0)
    (ws := wRange w jx 1 ++ List.replicate 7 0)
    (fun i => if i < 1 then px (jx + i) 0 else 0) (fun i => if i < 1 then w.getD (jx + i) 0 else 0)
    (by intro i hi; simpa using hi) rfl rfl
    (by intro i hi; have hi : i < 8 := by simpa using hi
        interval_cases i <;> exact ⟨rfl, rfl⟩)
    (fun i _ => ite_byte (hp _ _)) (fun i _ => ite_i16 (hw _))
  obtain rfl : c = 0 := by omega
  refine h.cast ?_ ?_
  · simp [sum_range_succ, List.range_succ, lowTerm_zero]; try ring
  · simp [sum_range_succ, List.range_succ, rdmCost_zero]; try ring

theorem cbcrRdm8_adds (hw : W16 w) (hp : ∀ k c, px k c ≤ 255) :
    StepAdds 65535 lowTerm rdmCost 2 (fun c => [c, c + 2, c + 4, c + 6]) 8 w px 8 (step1 2 8 16 cbcrRdmCore8 w px) := by
  intro c hc jx s S B h
  have h := h.many tapR_ok (ps := octet (pxRange 2 px jx 0 16) 0)
    (ws := tblW (wRange w jx 8) cbcrRdmLo)
    (fun i => px (jx + (0 + i / 2)) (i % 2)) (fun i => w.getD (jx + (0 + i / 2)) 0)
    (by intro i hi; simp only [List.mem_cons, List.not_mem_nil, or_false] at hi; omega) rfl rfl
    (by interval_cases c <;> (simp only [List.mem_cons, List.not_mem_nil, or_false]; rintro i hi; rcases hi with rfl | rfl | rfl | rfl <;> exact ⟨rfl, rfl⟩))
    (fun i _ => hp _ _) (fun i _ => hw _)
  have h := h.many tapR_ok (ps := octet (pxRange 2 px jx 0 16) 1)
    (ws := tblW (wRange w jx 8) cbcrRdmHi)
    (fun i => px (jx + (4 + i / 2)) (i % 2)) (fun i => w.getD (jx + (4 + i / 2)) 0)
    (by intro i hi; simp only [List.mem_cons, List.not_mem_nil, or_false] at hi; omega) rfl rfl
    (by interval_cases c <;> (simp only [List.mem_cons, List.not_mem_nil, or_false]; rintro i hi; rcases hi with rfl | rfl | rfl | rfl <;> exact ⟨rfl, rfl⟩))
    (fun i _ => hp _ _) (fun i _ => hw _)
  refine h.cast ?_ ?_
  · interval_cases c <;> (simp [sum_range_succ, lowTerm_zero]; try ring)
  · interval_cases c <;> (simp [sum_range_succ, rdmCost_zero]; try ring)

theorem cbcrRdm4_adds (hw : W16 w) (hp : ∀ k c, px k c ≤ 255) :
    StepAdds 65535 lowTerm rdmCost 2 (fun c => [c, c + 2, c + 4, c + 6]) 8 w px 4 (step1 2 4 8 cbcrRdmCore4 w px) := by
  intro c hc jx s S B h
  have h := h.many tapR_ok (ps := pxRange 2 px jx 0 8)
    (ws := tblW (wRange w jx 4) cbcrRdmLo)
    (fun i => px (jx + (0 + i / 2)) (i % 2)) (fun i => w.getD (jx + (0 + i / 2)) 0)
    (by intro i hi; simp only [List.mem_cons, List.not_mem_nil, or_false] at hi; omega) rfl rfl
    (by interval_cases c <;> (simp only [List.mem_cons, List.not_mem_nil, or_false]; rintro i hi; rcases hi with rfl | rfl | rfl | rfl <;> exact ⟨rfl, rfl⟩))
    (fun i _ => hp _ _) (fun i _ => hw _)
  refine h.cast ?_ ?_
  · interval_cases c <;> (simp [sum_range_succ, lowTerm_zero]; try ring)
  · interval_cases c <;> (simp [sum_range_succ, rdmCost_zero]; try ring)

theorem cbcrRdm1_adds (hw : W16 w) (hp : ∀ k c, px k c ≤ 255) :
    StepAdds 65535 lowTerm rdmCost 2 (fun c => [c, c + 2, c + 4, c + 6]) 8 w px 1 (step1 2 1 2 cbcrRdmCore1 w px) := by
  intro c hc jx s S B h
  have h := h.many tapR_ok (ps := pxRange 2 px jx 0 2 ++ List.replicate 6 0)
    (ws := tblW (wRange w jx 1) cbcrRdmLo)
    (fun i => if i < 2 then px jx i else 0) (fun i => if i < 2 then w.getD jx 0 else 0)
    (by intro i hi; simp only [List.mem_cons, List.not_mem_nil, or_false] at hi; omega) rfl rfl
    (by interval_cases c <;> (simp only [List.mem_cons, List.not_mem_nil, or_false]; rintro i hi; rcases hi with rfl | rfl | rfl | rfl <;> exact ⟨rfl, rfl⟩))
    (fun i _ => ite_byte (hp _ _)) (fun i _ => ite_i16 (hw _))
  refine h.cast ?_ ?_
  · interval_cases c <;> (simp [sum_range_succ, lowTerm_zero]; try ring)
  · interval_cases c <;> (simp [sum_range_succ, rdmCost_zero]; try ring)

theorem rgbaRdm1_adds (hw : W16 w) (hp : ∀ k c, px k c ≤ 255) :
    StepAdds 65535 lowTerm rdmCost 4 (fun c => [c]) 4 w px 1 (step1 4 1 4 rgbaRdmCore1 w px) := by
  intro c hc jx s S B h
  have h := h.one tapR_ok (ps := pxRange 4 px jx 0 4) (p := px (jx + 0) c) (v := w.getD (jx + 0) 0) (by omega) rfl
    (by interval_cases c <;> rfl) (hp _ _) (hw _)
  refine h.cast ?_ ?_
  · simp only [sum_range_succ, sum_range_zero, zero_add]
  · simp only [sum_range_succ, sum_range_zero, zero_add]

end

end PicScale
