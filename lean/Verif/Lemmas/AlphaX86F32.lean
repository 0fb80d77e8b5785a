import Verif.Model.AlphaX86F32
import Verif.Lemmas.Alpha
import Mathlib.Tactic.IntervalCases

/-!
The float alpha chunks act pixel by pixel; rows are full chunks followed by scalar pixels.
-/

namespace PicScale

/-- A chunk function acts pixel by pixel on float samples, keeping alpha. -/
def PixelwiseF (P : ℕ) (chunk : List ℚ → List ℚ) (col : ℚ → ℚ → ℚ) : Prop :=
  ∀ l : List ℚ, l.length = P → (chunk l).length = P ∧
    ∀ x c, x * 4 < P → c < 4 → (chunk l)[x * 4 + c]? = some (pixelVal col id (fun c => l.getD (x * 4 + c) 0) c)

/-- A lane-wise operation on registers. -/
def LaneWiseF (colour : RegF → RegF → RegF) (col : ℚ → ℚ → ℚ) : Prop :=
  ∀ x0 x1 x2 x3 a0 a1 a2 a3, colour [x0, x1, x2, x3] [a0, a1, a2, a3] = [col x0 a0, col x1 a1, col x2 a2, col x3 a3]

theorem mulps_laneWise : LaneWiseF mulps (fun c a => F32.rnd (c * a)) := fun _ _ _ _ _ _ _ _ => rfl

theorem unpremulLanesF_laneWise : LaneWiseF unpremulLanesF (fun c a => if a = 0 then 0 else F32.rnd (c / a)) := by
  have e : ∀ c a : ℚ, (if a = 0 then 0 else F32.div c a) = if a = 0 then 0 else F32.rnd (c / a) := by
    intro c a
    split_ifs with h
    · rfl
    · exact F32.div_eq h
  intro x0 x1 x2 x3 a0 a1 a2 a3
  dsimp only
  rw [← e, ← e, ← e, ← e]
  rfl

theorem sseChunkF_pixelwise {colour : RegF → RegF → RegF} {col : ℚ → ℚ → ℚ} (h : LaneWiseF colour col) :
    PixelwiseF 16 (sseChunkF colour) col := by
  intro l hl
  have e : sseChunkF colour l = (List.range 4).flatMap fun x =>
      (List.range 4).map fun c => pixelVal col id (fun c => l.getD (x * 4 + c) 0) c := by
    unfold sseChunkF
    simp only [sseDeinterleaveF, unpackloF, unpackhiF, regFAt, List.range, List.range.loop, List.map_cons, List.map_nil,
      List.getD_cons_zero, List.getD_cons_succ, Nat.reduceMul, Nat.reduceAdd]
    rw [h, h, h]
    rfl
  rw [e]
  refine ⟨rfl, fun x c hx hc => ?_⟩
  have hx : x < 4 := by omega
  interval_cases x <;> interval_cases c <;> rfl

theorem avxChunkF_pixelwise {colour : RegF → RegF → RegF} {col : ℚ → ℚ → ℚ} (h : LaneWiseF colour col) :
    PixelwiseF 32 (avxChunkF colour) col := by
  intro l hl
  have e : avxChunkF colour l = (List.range 8).flatMap fun x =>
      (List.range 4).map fun c => pixelVal col id (fun c => l.getD (x * 4 + c) 0) c := by
    unfold avxChunkF
    simp only [avxDeinterleaveF, bothF, permLowF, permHighF, regFAt2, unpackloF, unpackhiF, regFAt, List.range, List.range.loop,
      List.map_cons, List.map_nil, List.getD_cons_zero, List.getD_cons_succ, Nat.reduceMul, Nat.reduceAdd]
    rw [h, h, h, h, h, h]
    rfl
  rw [e]
  refine ⟨rfl, fun x c hx hc => ?_⟩
  have hx : x < 8 := by omega
  interval_cases x <;> interval_cases c <;> rfl

/-- Chunks of `P` samples cover the first `w * 4 / P * P` samples of a row. -/
theorem chunksF_core {P w : ℕ} (h4 : P % 4 = 0) (hP : 0 < P) {chunk : List ℚ → List ℚ} {col colS : ℚ → ℚ → ℚ}
    (hc : PixelwiseF P chunk col) {src r rest : List ℚ} (hs : src.length = w * 4)
    (r2 : r.length = w * 4)
    (r3 : ∀ i j, i < src.length / P → j < P → r[i * P + j]? = (chunk ((src.drop (i * P)).take P))[j]?)
    (q1 : rest.length = w * 4 % P)
    (q2 : ∀ x c, x * 4 < w * 4 % P → c < 4 → rest[x * 4 + c]? =
      some (pixelVal colS id (fun c => ((chunksRemainder P src)[x * 4 + c]?).getD 0) c)) :
    (r.take (w * 4 / P * P) ++ rest).length = w * 4 ∧ ∀ x c, x < w → c < 4 →
        (r.take (w * 4 / P * P) ++ rest)[x * 4 + c]? =
          some (pixelVal (if x * 4 < w * 4 / P * P then col else colS) id (fun c => (src[x * 4 + c]?).getD 0) c) := by
  have hq : src.length / P * P ≤ src.length := Nat.div_mul_le_self _ _
  have hdm : src.length / P * P + src.length % P = src.length := Nat.div_add_mod' _ _
  have hmod : src.length % P < P := Nat.mod_lt _ hP
  obtain ⟨m, rfl⟩ : ∃ m, P = 4 * m := ⟨P / 4, by omega⟩
  rw [← hs] at q1 q2 ⊢
  rw [← hs] at r2
  have hbeq : src.length / (4 * m) * (4 * m) = 4 * (src.length / (4 * m) * m) := by ring
  have hbl : (r.take (src.length / (4 * m) * (4 * m))).length = src.length / (4 * m) * (4 * m) := by
    rw [List.length_take, r2]; omega
  refine ⟨by rw [List.length_append, hbl, q1]; omega, fun x c hx hc4 => ?_⟩
  by_cases hlt : x * 4 < src.length / (4 * m) * (4 * m)
  · rw [if_pos hlt, List.getElem?_append_left (by omega), List.getElem?_take, if_pos (by omega)]
    have hxm : x / m < src.length / (4 * m) := by
      rw [Nat.div_lt_iff_lt_mul (by omega)]; omega
    have hj : (x % m) * 4 + c < 4 * m := by
      have := Nat.mod_lt x (show 0 < m by omega); omega
    have e : x * 4 = x / m * (4 * m) + x % m * 4 := by
      have := Nat.div_add_mod' x m
      calc x * 4 = (x / m * m + x % m) * 4 := by rw [this]
        _ = _ := by ring
    have hg := (hc _ (chunk_length hxm)).2 (x % m) c (by omega) hc4
    rw [e, Nat.add_assoc, r3 _ _ hxm hj, hg]
    congr 1
    have e2 : ∀ c, c < 4 → ((src.drop (x / m * (4 * m))).take (4 * m)).getD (x % m * 4 + c) 0 =
        (src[x / m * (4 * m) + x % m * 4 + c]?).getD 0 := by
      intro c hc4
      rw [List.getD_eq_getElem?_getD, chunk_get (by omega), Nat.add_assoc]
    unfold pixelVal
    dsimp only
    rw [e2 c hc4, e2 3 (by omega)]
  · rw [if_neg hlt]
    have hge : src.length / (4 * m) * m ≤ x := by omega
    obtain ⟨d, rfl⟩ : ∃ d, x = src.length / (4 * m) * m + d := ⟨x - src.length / (4 * m) * m, by omega⟩
    have hidx : (src.length / (4 * m) * m + d) * 4 + c = src.length / (4 * m) * (4 * m) + (d * 4 + c) := by ring
    rw [hidx, List.getElem?_append_right (by omega), hbl, Nat.add_sub_cancel_left, q2 d c (by omega) hc4]
    congr 1
    have e2 : ∀ c, (chunksRemainder (4 * m) src)[d * 4 + c]? = src[(src.length / (4 * m) * m + d) * 4 + c]? := by
      intro c
      unfold chunksRemainder
      rw [List.getElem?_drop]
      congr 1
      ring
    unfold pixelVal
    dsimp only
    rw [e2 c, e2 3]

theorem remainder_length {α : Type _} {P w : ℕ} {l : List α} (h4 : P % 4 = 0) (hl : l.length = w * 4) :
    (chunksRemainder P l).length = w * 4 % P / 4 * 4 ∧ w * 4 % P / 4 * 4 = w * 4 % P := by
  have h1 : (chunksRemainder P l).length = w * 4 % P := by
    unfold chunksRemainder
    rw [List.length_drop, hl]
    have := Nat.div_add_mod' (w * 4) P
    omega
  obtain ⟨m, rfl⟩ : ∃ m, P = 4 * m := ⟨P / 4, by omega⟩
  have h2 : w * 4 % (4 * m) = 4 * (w % m) := by rw [Nat.mul_comm w 4, Nat.mul_mod_mul_left]
  omega

theorem premulRowF_ok {P : ℕ} (h4 : P % 4 = 0) (hP : 0 < P) {chunk : List ℚ → List ℚ}
    (hc : PixelwiseF P chunk fun c a => F32.rnd (c * a)) :
    RowOK (premulRowF P chunk) (fun c a => F32.rnd (c * a)) id 0 := by
  intro w dst src hd hs
  have hq : src.length / P * P ≤ src.length := Nat.div_mul_le_self _ _
  obtain ⟨r, r1, r2, r3, r4⟩ := updChunks_spec P (fun _ s => some (chunk s)) (chunksExact P src) dst
    (fun i => chunk ((src.drop (i * P)).take P)) (by simp; omega)
    (by
      intro i x hx
      have hi : i < src.length / P := by
        by_contra hc
        rw [List.getElem?_eq_none (by simp; omega)] at hx; simp at hx
      rw [chunksExact_get _ src i hi] at hx
      obtain rfl := Option.some.inj hx
      rfl)
    (by
      intro i hi
      exact (hc _ (chunk_length (by simpa using hi))).1)
  rw [chunksExact_length] at r3
  obtain ⟨l1, l2⟩ := remainder_length h4 hd
  obtain ⟨l3, _⟩ := remainder_length h4 hs
  obtain ⟨q, q1, q2, q3⟩ := alphaRow_spec (fun c a => F32.rnd (c * a)) (fun a => a) 0 l1 l3
  unfold premulRowF premultiplyPixelF
  rw [r1]
  simp only [Option.bind_eq_bind, Option.bind_some]
  rw [q1]
  simp only [Option.bind_some]
  have := chunksF_core h4 hP hc (colS := fun c a => F32.rnd (c * a)) hs (by omega) r3 (by omega : q.length = w * 4 % P)
    (fun x c hx hc4 => q3 x c (by omega) hc4)
  refine ⟨_, rfl, by rw [hd]; exact this.1, fun x c hx hc4 => ?_⟩
  have h := this.2 x c hx hc4
  rw [ite_self] at h
  rw [hd]
  exact h

theorem unpremulRowF_ok {P : ℕ} (h4 : P % 4 = 0) (hP : 0 < P) {chunk : List ℚ → List ℚ}
    (hc : PixelwiseF P chunk fun c a => if a = 0 then 0 else F32.rnd (c / a)) :
    RowInPlaceX (unpremulRowF P chunk) (fun w x c a => if a = 0 then 0 else
      if x * 4 < w * 4 / P * P then F32.rnd (c / a) else F32.rnd (c * F32.rnd (1 / a))) id 0 := by
  intro w l hl
  have hq : l.length / P * P ≤ l.length := Nat.div_mul_le_self _ _
  obtain ⟨r, r1, r2, r3, r4⟩ := updChunks_spec P (fun d (_ : Unit) => some (chunk d)) (List.replicate (l.length / P) ()) l
    (fun i => chunk ((l.drop (i * P)).take P)) (by simp; omega)
    (by intro i x hx; rfl)
    (by
      intro i hi
      exact (hc _ (chunk_length (by simpa using hi))).1)
  rw [List.length_replicate] at r3
  obtain ⟨l1, l2⟩ := remainder_length h4 hl
  obtain ⟨q, q1, q2, q3⟩ := alphaRowInPlace_spec (fun c a => if a ≠ 0 then F32.rnd (c * F32.rnd (1 / a)) else 0) (fun a => a) 0 l1
  unfold unpremulRowF
  rw [unpremultiplyPixelF_eq]
  rw [r1]
  simp only [Option.bind_eq_bind, Option.bind_some]
  rw [q1]
  simp only [Option.bind_some]
  have := chunksF_core h4 hP hc (colS := fun c a => if a ≠ 0 then F32.rnd (c * F32.rnd (1 / a)) else 0) hl (by omega) r3
    (by omega : q.length = w * 4 % P) (fun x c hx hc4 => q3 x c (by omega) hc4)
  refine ⟨_, rfl, by rw [hl]; exact this.1, fun x c hx hc4 => ?_⟩
  have h := this.2 x c hx hc4
  rw [hl, h]
  congr 1
  unfold pixelVal
  by_cases hlt : x * 4 < w * 4 / P * P
  · simp only [if_pos hlt]
  · simp only [if_neg hlt, ne_eq, ite_not]

end PicScale
