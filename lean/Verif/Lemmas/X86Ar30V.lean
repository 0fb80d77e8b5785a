import Verif.Lemmas.X86Ar30H

/-! The SSE4.1 column handler for packed 10-bit pixels. -/

namespace PicScale

open Finset Spec

/-- Accumulator of one component after `n` rows with samples `r`. -/
def acc30 (w : List ℤ) (r : ℕ → ℕ) (n : ℕ) : ℤ :=
  i32 (16383 + wsum n (fun k => i16 (w.getD k 0)) (fun k => (r k : ℤ)))

theorem acc30_succ (w : List ℤ) (r : ℕ → ℕ) (n : ℕ) (hr : r n ≤ 1023) :
    i32 (acc30 w r n + i16 (w.getD n 0) * i16 (r n : ℤ)) = acc30 w r (n + 1) := by
  unfold acc30
  rw [i32_i32_add, wsum_succ, i16_eq_self (v := (r n : ℤ)) (by omega) (by omega), add_assoc]

/-- The accumulators of eight pixels after `n` rows; `R k i c` is component `c` of pixel `i` in row `k`. -/
def St30 (w : List ℤ) (R : ℕ → ℕ → ℕ → ℕ) (n : ℕ) : Acc30 :=
  ((lanes4 fun i => acc30 w (fun k => R k i 0) n, lanes4 fun i => acc30 w (fun k => R k (4 + i) 0) n),
   (lanes4 fun i => acc30 w (fun k => R k i 1) n, lanes4 fun i => acc30 w (fun k => R k (4 + i) 1) n),
   (lanes4 fun i => acc30 w (fun k => R k i 2) n, lanes4 fun i => acc30 w (fun k => R k (4 + i) 2) n))

theorem St30_zero (w : List ℤ) (R : ℕ → ℕ → ℕ → ℕ) : ar30Init = St30 w R 0 := by
  have e : ∀ r : ℕ → ℕ, acc30 w r 0 = 16383 := by
    intro r
    unfold acc30 wsum
    rw [sum_range_zero, add_zero]
    exact i32_eq_self (by norm_num) (by norm_num)
  unfold ar30Init St30
  simp only [e, show (2 ^ (15 - 1) - 1 : ℤ) = 16383 by norm_num, set1epi32_of]

theorem ar30Dot_of (t : Rgb30) (o : Ar30Order) (w : List ℤ) (R : ℕ → ℕ → ℕ → ℕ) (n : ℕ) {p : ℕ → ℕ}
    (hp : ∀ i, p i < 256) (hR : ∀ i c, px30 t o p c i = R n i c) :
    ar30Dot t o (bytesOf p) (bytesOf fun i => p (16 + i)) (w.getD n 0) (St30 w R n) = St30 w R (n + 1) := by
  have hle : ∀ i c, R n i c ≤ 1023 := fun i c => by rw [← hR]; exact raw30_le _ _ _
  unfold ar30Dot
  rw [unzip3_of t o hp]
  unfold St30
  dsimp only
  rw [lbDot_of _ _ _ fun i => px30_lt t o p 0 i, lbDot_of _ _ _ fun i => px30_lt t o p 1 i,
    lbDot_of _ _ _ fun i => px30_lt t o p 2 i]
  simp only [hR]
  have s := fun i c => acc30_succ w (fun k => R k i c) n (hle i c)
  simp only [s]

theorem ar30Plane_of (f g : ℕ → ℤ) : ar30Plane (lanes4 f, lanes4 g) =
    lanes8 fun i => ((lane30 15 1023 (if i < 4 then f i else g (i - 4)) : ℕ) : ℤ) := by
  unfold ar30Plane
  dsimp only
  rw [srai32_gen, srai32_gen, packus32_of, set1epi16_of, min16_of, ← lanes8_mod]
  apply lanes8_congr
  intro i _
  unfold lane30 u16
  have e : ∀ v : ℤ, v % 65536 = (((v % 65536).toNat : ℕ) : ℤ) := fun v => by omega
  rw [← e]
  split_ifs <;> rfl

theorem ar30Narrow_of (t : Rgb30) (o : Ar30Order) (w : List ℤ) (R : ℕ → ℕ → ℕ → ℕ) (n : ℕ) :
    ar30Narrow t o (St30 w R n) = (List.range 32).map fun p =>
      pxByte t o (fun c => lane30 15 1023 (acc30 w (fun k => R k (p / 4) c) n)) (p % 4) := by
  have l : ∀ v : ℤ, lane30 15 1023 v < 65536 := fun v => u16_lt _
  unfold ar30Narrow St30
  dsimp only
  rw [ar30Plane_of, ar30Plane_of, ar30Plane_of, zip4_of t o (fun i => l _) (fun i => l _) (fun i => l _)]
  apply List.map_congr_left
  intro p _
  refine pxByte_congr (fun c hc => ?_) _
  have h3 : c = 0 ∨ c = 1 ∨ c = 2 := by omega
  have e : ∀ q c, (if q < 4 then acc30 w (fun k => R k q c) n else acc30 w (fun k => R k (4 + (q - 4)) c) n) =
      acc30 w (fun k => R k q c) n := by
    intro q c
    split_ifs with h
    · rfl
    · rw [show 4 + (q - 4) = q by omega]
  rcases h3 with rfl | rfl | rfl <;> simp only [e] <;> rfl

/-- Component `c` of pixel `x` in row `k` of the window. -/
def colRaw (t : Rgb30) (o : Ar30Order) (src : List ℕ) (stride : ℕ) (b : Bounds) (x c k : ℕ) : ℕ :=
  raw30 (fmtLE t o) (fun i => src.getD (stride * (b.start + k) + x * 4 + i) 0 % 256) c

/-- Byte `p` of the row written by the column handler. -/
def vVal30 (t : Rgb30) (o : Ar30Order) (src : List ℕ) (stride : ℕ) (w : List ℤ) (b : Bounds) (p : ℕ) : ℕ :=
  pxByte t o (fun c => lane30 15 1023 (acc30 w (colRaw t o src stride b (p / 4) c) b.size)) (p % 4)

variable {t : Rgb30} {o : Ar30Order} {src : List ℕ} {stride : ℕ} {w : List ℤ} {b : Bounds} {width : ℕ}

theorem row_room (hsrc : (b.start + b.size - 1) * stride + width * 4 ≤ src.length) {k : ℕ} (hk : k < b.size) :
    stride * (b.start + k) + width * 4 ≤ src.length := by
  have : stride * (b.start + k) ≤ (b.start + b.size - 1) * stride := by
    rw [Nat.mul_comm]; exact Nat.mul_le_mul_right _ (by omega)
  omega

theorem ar30Block_ok (hw : b.size ≤ w.length) (hsrc : (b.start + b.size - 1) * stride + width * 4 ≤ src.length) :
    BlockOKU 4 width 8 (ar30Block t o b src stride w) (vVal30 t o src stride w b) := by
  intro x dst hl hx
  let R : ℕ → ℕ → ℕ → ℕ := fun k i c => colRaw t o src stride b (x + i) c k
  obtain ⟨st, e1, rfl⟩ := forRange_inv (n := b.size) (s := ar30Init)
    (body := fun j st => do
      let w ← w[j]?
      let l0 ← load128 src (stride * (b.start + j) + x * 4)
      let l1 ← load128 src (stride * (b.start + j) + x * 4 + 16)
      some (ar30Dot t o l0 l1 w st))
    (P := fun j st => st = St30 w R j) (St30_zero w R)
    (by
      intro j hj st hst
      have hr := row_room hsrc hj
      obtain ⟨l0, l1⟩ := load_two (src := src) (off := stride * (b.start + j) + x * 4) (by omega)
      refine ⟨St30 w R (j + 1), ?_, rfl⟩
      rw [getElem?_eq_some_getD 0 (by omega), l0, l1]
      simp only [Option.bind_eq_bind, Option.bind_some]
      rw [hst, ar30Dot_of t o w R j fun i => Nat.mod_lt _ (by norm_num)]
      intro i c
      simp only [R]
      unfold px30 colRaw
      apply raw30_congr
      intro k _
      dsimp only
      congr 2
      omega)
  obtain ⟨r, f1, f2, f3, f4⟩ := writeAt?_spec (l := dst) (a := x * 4) (v := ar30Narrow t o (St30 w R b.size))
    (by rw [ar30Narrow_of]; simp; omega)
  rw [ar30Narrow_of] at f3 f4
  simp only [List.length_map, List.length_range] at f3 f4
  refine ⟨r, ?_, by omega, ?_, fun p hp => f4 p (by omega)⟩
  · unfold ar30Block
    rw [Nat.min_eq_left hw]
    simp only [Option.bind_eq_bind] at e1 ⊢
    rw [e1]
    exact f1
  · intro p hp1 hp2
    have := f3 (p - x * 4) (by omega)
    rw [show x * 4 + (p - x * 4) = p by omega] at this
    rw [this, List.getElem?_map, List.getElem?_range (by omega)]
    simp only [Option.map_some, R, vVal30]
    rw [show x + (p - x * 4) / 4 = p / 4 by omega, show (p - x * 4) % 4 = p % 4 by omega]

theorem ar30Tail_ok (hw : b.size ≤ w.length) (hsrc : (b.start + b.size - 1) * stride + width * 4 ≤ src.length)
    {diff x : ℕ} (hd : diff ≤ 8) (hx : x + diff ≤ width) (dst : List ℕ) (hl : dst.length = width * 4) :
    ∃ r, ar30Tail t o b src stride w diff x dst = some r ∧ r.length = dst.length ∧
      (∀ p, x * 4 ≤ p → p < (x + diff) * 4 → r[p]? = some (vVal30 t o src stride w b p)) ∧
      (∀ p, (p < x * 4 ∨ (x + diff) * 4 ≤ p) → r[p]? = dst[p]?) := by
  let B : ℕ → ℕ → ℕ := fun k i => if i < diff * 4 then src.getD (stride * (b.start + k) + x * 4 + i) 0 % 256 else 0
  have hB : ∀ k i, B k i < 256 := by
    intro k i
    simp only [B]
    split_ifs
    · exact Nat.mod_lt _ (by norm_num)
    · norm_num
  let R : ℕ → ℕ → ℕ → ℕ := fun k i c => px30 t o (B k) c i
  have tr : ∀ k, (List.range (diff * 4)).map (fun c => src.getD (stride * (b.start + k) + x * 4 + c) 0 % 256) ++
      List.replicate (32 - diff * 4) 0 = (List.range 32).map (B k) := by
    intro k
    apply List.ext_getElem?
    intro i
    by_cases h1 : i < diff * 4
    · rw [List.getElem?_append_left (by simp; omega), List.getElem?_map, List.getElem?_range h1, List.getElem?_map,
        List.getElem?_range (by omega)]
      simp only [Option.map_some, B, if_pos h1]
    · rw [List.getElem?_append_right (by simp; omega), List.getElem?_replicate, List.getElem?_map]
      simp only [List.length_map, List.length_range]
      by_cases h2 : i < 32
      · rw [if_pos (by omega), List.getElem?_range h2]
        simp only [Option.map_some, B, if_neg h1]
      · rw [if_neg (by omega), List.getElem?_eq_none (by simp; omega)]
        rfl
  have halves : ∀ f : ℕ → ℕ, ((List.range 32).map f).take 16 = bytesOf f ∧
      ((List.range 32).map f).drop 16 = bytesOf fun i => f (16 + i) := fun f => ⟨rfl, rfl⟩
  obtain ⟨st, e1, rfl⟩ := forRange_inv (n := b.size) (s := ar30Init)
    (body := fun j st => do
      let w ← w[j]?
      let s ← loadBytes src (stride * (b.start + j) + x * 4) (diff * 4)
      let transient := s ++ List.replicate (32 - diff * 4) 0
      some (ar30Dot t o (transient.take 16) (transient.drop 16) w st))
    (P := fun j st => st = St30 w R j) (St30_zero w R)
    (by
      intro j hj st hst
      have hr := row_room hsrc hj
      refine ⟨St30 w R (j + 1), ?_, rfl⟩
      rw [getElem?_eq_some_getD 0 (by omega), loadBytes_eq (by omega)]
      simp only [Option.bind_eq_bind, Option.bind_some]
      rw [tr j, (halves (B j)).1, (halves (B j)).2, hst, ar30Dot_of t o w R j (hB j)]
      intro i c
      rfl)
  obtain ⟨r, f1, f2, f3, f4⟩ := writeAt?_spec (l := dst) (a := x * 4)
    (v := (ar30Narrow t o (St30 w R b.size)).take (diff * 4))
    (by rw [ar30Narrow_of]; simp; omega)
  rw [ar30Narrow_of] at f3 f4
  simp only [List.length_map, List.length_range, List.length_take, Nat.min_eq_left (show diff * 4 ≤ 32 by omega)] at f3 f4
  refine ⟨r, ?_, by omega, ?_, fun p hp => f4 p (by omega)⟩
  · unfold ar30Tail
    rw [Nat.min_eq_left hw]
    simp only [Option.bind_eq_bind] at e1 ⊢
    rw [e1]
    exact f1
  · intro p hp1 hp2
    have := f3 (p - x * 4) (by omega)
    rw [show x * 4 + (p - x * 4) = p by omega] at this
    rw [this, List.getElem?_take, if_pos (by omega), List.getElem?_map, List.getElem?_range (by omega)]
    simp only [Option.map_some, vVal30]
    rw [show (p - x * 4) % 4 = p % 4 by omega]
    refine congrArg some (pxByte_congr (fun c _ => ?_) _)
    refine congrArg (fun r => lane30 15 1023 (acc30 w r b.size)) (funext fun k => ?_)
    simp only [R]
    unfold px30 colRaw
    apply raw30_congr
    intro i hi
    simp only [B]
    rw [if_pos (by omega)]
    congr 2
    omega

theorem sseColumn30_spec {dst : List ℕ} (hw : b.size ≤ w.length) (hd : dst.length = width * 4)
    (hsrc : (b.start + b.size - 1) * stride + width * 4 ≤ src.length) :
    ∃ r, sseColumn30 t o b src dst stride w = some r ∧ r.length = dst.length ∧
      ∀ p, p < dst.length → r[p]? = some (vVal30 t o src stride w b p) := by
  have ht : dst.length / 4 = width := by omega
  obtain ⟨c1, r1, a1, a2, a3, a4, a5, a6⟩ := whileBlocksU_spec (margin := 8) (step := 8) (by omega) (by omega)
    (ar30Block_ok (t := t) (o := o) hw hsrc) width 0 dst hd (by omega) (by omega) (by simp)
  unfold sseColumn30
  simp only [Option.bind_eq_bind, ht, a1, Option.bind_some]
  split_ifs with hc
  · obtain ⟨r, e1, e2, e3, e4⟩ := ar30Tail_ok (t := t) (o := o) hw hsrc (diff := width - c1) (x := c1) (by omega) (by omega) r1 a2
    refine ⟨r, e1, by omega, fun p hp => ?_⟩
    by_cases h : p < c1 * 4
    · rw [e4 p (Or.inl h), a6 p h]
    · exact e3 p (by omega) (by omega)
  · exact ⟨r1, rfl, by omega, fun p hp => a6 p (by omega)⟩

end PicScale
