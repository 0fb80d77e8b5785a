import Verif.Model.AlphaF16
import Verif.Lemmas.AlphaX86U16
import Verif.Lemmas.AlphaX86F32

/-!
The f16 alpha chunks act pixel by pixel; rows are full chunks followed by portable pixels.
-/

namespace PicScale

theorem lane_nat {n : ℕ} (h : n < 65536) : (i16 (n : ℤ) % 65536).toNat = n := by
  unfold i16
  rw [Int.bmod_def]
  push_cast
  split <;> omega

/-- The low four lanes, widened. -/
theorem cvtph_of (cv : ℕ → ℚ) {f : ℕ → ℕ} (hf : ∀ i, f i < 65536) :
    cvtph cv (lanes8 fun i => (f i : ℤ)) = [cv (f 0), cv (f 1), cv (f 2), cv (f 3)] := by
  unfold cvtph lanes8
  have key : ∀ l : List ℕ, ((l.map fun i => (f i : ℤ)).map i16).map (fun v => cv (v % 65536).toNat) =
      l.map fun i => cv (f i) := by
    intro l
    rw [List.map_map, List.map_map]
    apply List.map_congr_left
    intro i _
    rw [Function.comp_apply, Function.comp_apply, lane_nat (hf i)]
  rw [lanes16_ofLanes16, List.map_take, key]
  rfl

theorem highPart_of (f : ℕ → ℤ) : highPart (lanes8 f) = lanes8 fun i => if i < 4 then f (4 + i) else 0 := rfl

theorem laneHalves_lane (cv : ℕ → ℚ) (nv : ℚ → ℕ) {f : RegF → RegF → RegF} {col : ℚ → ℚ → ℚ} (h : LaneWiseF f col) :
    LaneFn (laneHalves cv nv f) fun c a => (nv (col (cv c) (cv a)) : ℤ) := by
  intro x a hx ha
  have hi : ∀ {k : ℕ → ℕ}, (∀ i, k i < 65536) → highPart (lanes8 fun i => (k i : ℤ)) =
      lanes8 fun i => ((if i < 4 then k (4 + i) else 0 : ℕ) : ℤ) := by
    intro k _
    rw [highPart_of]
    apply lanes8_congr
    intro i _
    split_ifs <;> rfl
  have hb : ∀ {k : ℕ → ℕ}, (∀ i, k i < 65536) → ∀ i, (if i < 4 then k (4 + i) else 0) < 65536 := by
    intro k hk i
    split_ifs
    · exact hk _
    · norm_num
  unfold laneHalves
  rw [hi hx, hi ha, cvtph_of cv hx, cvtph_of cv ha, cvtph_of cv (hb hx), cvtph_of cv (hb ha), h, h]
  rfl

/-- Chunks of `P` samples cover the first `w * 4 / P * P` samples of a row; the rest is done by other code. -/
theorem chunksH_core {P w : ℕ} (h4 : P % 4 = 0) (hP : 0 < P) {chunk : List ℕ → List ℕ} {col colS : ℕ → ℕ → ℕ} {alp alpS : ℕ → ℕ}
    (hc : Pixelwise P chunk col alp) {src r rest : List ℕ} (hs : src.length = w * 4)
    (r2 : r.length = w * 4)
    (r3 : ∀ i j, i < src.length / P → j < P → r[i * P + j]? = (chunk ((src.drop (i * P)).take P))[j]?)
    (q1 : rest.length = w * 4 % P)
    (q2 : ∀ x c, x * 4 < w * 4 % P → c < 4 → rest[x * 4 + c]? =
      some (pixelVal colS alpS (fun c => ((chunksRemainder P src)[x * 4 + c]?).getD 0) c)) :
    (r.take (w * 4 / P * P) ++ rest).length = w * 4 ∧ ∀ x c, x < w → c < 4 →
        (r.take (w * 4 / P * P) ++ rest)[x * 4 + c]? =
          some (pixelVal (if x * 4 < w * 4 / P * P then col else colS) (if x * 4 < w * 4 / P * P then alp else alpS)
            (fun c => (src[x * 4 + c]?).getD 0) c) := by
  have hq : src.length / P * P ≤ src.length := Nat.div_mul_le_self _ _
  have hdm : src.length / P * P + src.length % P = src.length := Nat.div_add_mod' _ _
  have hmod : src.length % P < P := Nat.mod_lt _ hP
  obtain ⟨m, rfl⟩ : ∃ m, P = 4 * m := ⟨P / 4, by omega⟩
  rw [← hs] at q1 q2 ⊢
  rw [← hs] at r2
  have hbeq : src.length / (4 * m) * (4 * m) = 4 * (src.length / (4 * m) * m) := by ring
  have hbl : (r.take (src.length / (4 * m) * (4 * m))).length = src.length / (4 * m) * (4 * m) := by
    rw [List.length_take, r2]; omega
  refine ⟨by rw [List.length_append, hbl, q1]; omega, fun x c hx hc4 => ?_⟩
  by_cases hlt : x * 4 < src.length / (4 * m) * (4 * m)
  · rw [if_pos hlt, if_pos hlt, List.getElem?_append_left (by omega), List.getElem?_take, if_pos (by omega)]
    have hxm : x / m < src.length / (4 * m) := by
      rw [Nat.div_lt_iff_lt_mul (by omega)]; omega
    have hj : (x % m) * 4 + c < 4 * m := by
      have := Nat.mod_lt x (show 0 < m by omega); omega
    have e : x * 4 = x / m * (4 * m) + x % m * 4 := by
      have := Nat.div_add_mod' x m
      calc x * 4 = (x / m * m + x % m) * 4 := by rw [this]
        _ = _ := by ring
    have hg := (hc _ (chunk_length hxm)).2 (x % m) c (by omega) hc4
    rw [e, Nat.add_assoc, r3 _ _ hxm hj, hg]
    congr 1
    have e2 : ∀ c, c < 4 → ((src.drop (x / m * (4 * m))).take (4 * m)).getD (x % m * 4 + c) 0 =
        (src[x / m * (4 * m) + x % m * 4 + c]?).getD 0 := by
      intro c hc4
      rw [List.getD_eq_getElem?_getD, chunk_get (by omega), Nat.add_assoc]
    unfold pixelVal
    dsimp only
    rw [e2 c hc4, e2 3 (by omega)]
  · rw [if_neg hlt, if_neg hlt]
    have hge : src.length / (4 * m) * m ≤ x := by omega
    obtain ⟨d, rfl⟩ : ∃ d, x = src.length / (4 * m) * m + d := ⟨x - src.length / (4 * m) * m, by omega⟩
    have hidx : (src.length / (4 * m) * m + d) * 4 + c = src.length / (4 * m) * (4 * m) + (d * 4 + c) := by ring
    rw [hidx, List.getElem?_append_right (by omega), hbl, Nat.add_sub_cancel_left, q2 d c (by omega) hc4]
    congr 1
    have e2 : ∀ c, (chunksRemainder (4 * m) src)[d * 4 + c]? = src[(src.length / (4 * m) * m + d) * 4 + c]? := by
      intro c
      unfold chunksRemainder
      rw [List.getElem?_drop]
      congr 1
      ring
    unfold pixelVal
    dsimp only
    rw [e2 c, e2 3]

/-- Column `x` of `w` is in a full chunk of `P` samples. -/
def InChunk (P w x : ℕ) : Prop := x * 4 < w * 4 / P * P
instance (P w x : ℕ) : Decidable (InChunk P w x) := inferInstanceAs (Decidable (_ < _))

theorem premulRowH_ok (o : HalfOps ℕ ℚ) {P : ℕ} (h4 : P % 4 = 0) (hP : 0 < P) {chunk : List ℕ → List ℕ} {col : ℕ → ℕ → ℕ}
    {alp : ℕ → ℕ} (hc : Pixelwise P chunk col alp) :
    RowXA (premulRowH o P chunk)
      (fun w x => if InChunk P w x then col else fun c a => o.narrow (F32.mul (o.widen c) (o.widen a)))
      (fun w x => if InChunk P w x then alp else fun a => o.narrow (o.widen a)) 0 := by
  intro w dst src hd hs
  have hq : src.length / P * P ≤ src.length := Nat.div_mul_le_self _ _
  obtain ⟨r, r1, r2, r3, r4⟩ := updChunks_spec P (fun _ s => some (chunk s)) (chunksExact P src) dst
    (fun i => chunk ((src.drop (i * P)).take P)) (by simp; omega)
    (by
      intro i x hx
      have hi : i < src.length / P := by
        by_contra hc
        rw [List.getElem?_eq_none (by simp; omega)] at hx; simp at hx
      rw [chunksExact_get _ src i hi] at hx
      obtain rfl := Option.some.inj hx
      rfl)
    (by
      intro i hi
      exact (hc _ (chunk_length (by simpa using hi))).1)
  rw [chunksExact_length] at r3
  obtain ⟨l1, l2⟩ := remainder_length h4 hd
  obtain ⟨l3, _⟩ := remainder_length h4 hs
  obtain ⟨q, q1, q2, q3⟩ := alphaRow_spec (fun c a => o.narrow (F32.mul (o.widen c) (o.widen a)))
    (fun a => o.narrow (o.widen a)) 0 l1 l3
  unfold premulRowH premultiplyPixelH
  rw [r1]
  simp only [Option.bind_eq_bind, Option.bind_some]
  rw [q1]
  simp only [Option.bind_some]
  have := chunksH_core h4 hP hc (colS := fun c a => o.narrow (F32.mul (o.widen c) (o.widen a)))
    (alpS := fun a => o.narrow (o.widen a)) hs (by omega) r3 (by omega : q.length = w * 4 % P)
    (fun x c hx hc4 => q3 x c (by omega) hc4)
  refine ⟨_, rfl, by rw [hd]; exact this.1, fun x c hx hc4 => ?_⟩
  have h := this.2 x c hx hc4
  rw [hd]
  exact h

theorem unpremulRowH_ok (o : HalfOps ℕ ℚ) {P : ℕ} (h4 : P % 4 = 0) (hP : 0 < P) {chunk : List ℕ → List ℕ} {col : ℕ → ℕ → ℕ}
    {alp : ℕ → ℕ} (hc : Pixelwise P chunk col alp) :
    RowInPlaceXA (unpremulRowH o P chunk)
      (fun w x => if InChunk P w x then col else
        fun c a => o.narrow (if o.widen a ≠ 0 then F32.mul (o.widen c) (F32.div 1 (o.widen a)) else 0))
      (fun w x => if InChunk P w x then alp else fun a => a) 0 := by
  intro w l hl
  have hq : l.length / P * P ≤ l.length := Nat.div_mul_le_self _ _
  obtain ⟨r, r1, r2, r3, r4⟩ := updChunks_spec P (fun d (_ : Unit) => some (chunk d)) (List.replicate (l.length / P) ()) l
    (fun i => chunk ((l.drop (i * P)).take P)) (by simp; omega)
    (by intro i x hx; rfl)
    (by
      intro i hi
      exact (hc _ (chunk_length (by simpa using hi))).1)
  rw [List.length_replicate] at r3
  obtain ⟨l1, l2⟩ := remainder_length h4 hl
  obtain ⟨q, q1, q2, q3⟩ := alphaRowInPlace_spec
    (fun c a => o.narrow (if o.widen a ≠ 0 then F32.mul (o.widen c) (F32.div 1 (o.widen a)) else 0)) (fun a => a) 0 l1
  unfold unpremulRowH unpremultiplyPixelH
  rw [r1]
  simp only [Option.bind_eq_bind, Option.bind_some]
  rw [q1]
  simp only [Option.bind_some]
  have := chunksH_core h4 hP hc
    (colS := fun c a => o.narrow (if o.widen a ≠ 0 then F32.mul (o.widen c) (F32.div 1 (o.widen a)) else 0))
    (alpS := fun a => a) hl (by omega) r3
    (by omega : q.length = w * 4 % P) (fun x c hx hc4 => q3 x c (by omega) hc4)
  refine ⟨_, rfl, by rw [hl]; exact this.1, fun x c hx hc4 => ?_⟩
  have h := this.2 x c hx hc4
  rw [hl]
  exact h

theorem unpremulLanesH_laneWise : LaneWiseF unpremulLanesH (fun c a => if a = 0 then 0 else F32.rnd (c * a)) :=
  fun _ _ _ _ _ _ _ _ => rfl

/-- Pixels of a row of `w` handled in full vector chunks. -/
def vectorPixelsH (cpu : HalfCpu) (w : ℕ) : ℕ :=
  if cpu.avx2 && cpu.f16c then w / 16 * 16 else if cpu.sse41 then w / 8 * 8 else 0

theorem inChunk_64 (w x : ℕ) : InChunk 64 w x ↔ x < w / 16 * 16 := by unfold InChunk; omega
theorem inChunk_32 (w x : ℕ) : InChunk 32 w x ↔ x < w / 8 * 8 := by unfold InChunk; omega

end PicScale
