import Verif.Lemmas.Ar30Pass

namespace PicScale

open Finset

variable {α : Type}

/-- `BlockOK` for a loop that counts units of `u` elements. -/
def BlockOKU (u total width : ℕ) (body : ℕ → List α → Option (List α)) (val : ℕ → α) : Prop :=
  ∀ x (dst : List α), dst.length = total * u → x + width ≤ total →
    ∃ r, body x dst = some r ∧ r.length = total * u ∧
      (∀ p, x * u ≤ p → p < (x + width) * u → r[p]? = some (val p)) ∧
      (∀ p, (p < x * u ∨ (x + width) * u ≤ p) → r[p]? = dst[p]?)

theorem whileBlocksU_spec {u margin step total : ℕ} {body : ℕ → List α → Option (List α)}
    {val : ℕ → α} (hstep : 1 ≤ step) (hm : step ≤ margin + 1)
    (hb : BlockOKU u total step body val) :
    ∀ fuel cx (dst : List α), dst.length = total * u → cx ≤ total → total ≤ fuel + cx →
      (∀ p, p < cx * u → dst[p]? = some (val p)) →
      ∃ cx' r, whileBlocks margin step total body fuel cx dst = some (cx', r) ∧
        r.length = total * u ∧ cx ≤ cx' ∧ cx' ≤ total ∧ total ≤ cx' + margin ∧
        (∀ p, p < cx' * u → r[p]? = some (val p)) := by
  intro fuel
  induction fuel with
  | zero =>
    intro cx dst hl hc hf hv
    exact ⟨cx, dst, rfl, hl, le_refl _, hc, by omega, hv⟩
  | succ fuel ih =>
    intro cx dst hl hc hf hv
    unfold whileBlocks
    by_cases h : cx + margin < total
    · obtain ⟨r, h1, h2, h3, h4⟩ := hb cx dst hl (by omega)
      rw [if_pos h, h1]
      simp only [Option.bind_eq_bind, Option.bind_some]
      obtain ⟨cx', r', e1, e2, e3, e4, e5, e6⟩ := ih (cx + step) r h2 (by omega) (by omega) (by
        intro p hp
        by_cases hpc : p < cx * u
        · rw [h4 p (Or.inl hpc)]; exact hv p hpc
        · exact h3 p (by omega) hp)
      exact ⟨cx', r', e1, e2, by omega, e4, e5, e6⟩
    · rw [if_neg h]
      exact ⟨cx, dst, rfl, hl, le_refl _, hc, by omega, hv⟩

theorem zip_map_range (R : ℕ) {β γ : Type} (f : ℕ → β) (g : ℕ → γ) :
    ((List.range R).map f).zip ((List.range R).map g) = (List.range R).map fun r => (f r, g r) := by
  apply List.ext_getElem?
  intro i
  by_cases hi : i < R
  · simp [List.getElem?_zip_eq_some, hi]
  · simp [hi]

theorem range_zip_map (R : ℕ) {γ : Type} (g : ℕ → γ) :
    (List.range R).zip ((List.range R).map g) = (List.range R).map fun r => (r, g r) := by
  have := zip_map_range R id g
  simpa using this

theorem chunksExact_eq_map {s : List α} {B n : ℕ} (h : s.length = B * n) (hn : 0 < n) :
    chunksExact n s = (List.range B).map fun j => (s.drop (j * n)).take n := by
  unfold chunksExact
  rw [h, Nat.mul_div_cancel _ hn]

theorem columnStep30_eq (F : Fmt30) {R B : ℕ} {src : List ℕ} {off : ℕ} {w : ℤ} {f : ℕ → ℕ → ℤ}
    (h : off + B * R * 4 ≤ src.length) :
    columnStep30 F R B src off w ((List.range R).map fun r => (List.range B).map fun j =>
        (List.range 4).map (f (B * r + j))) =
      some ((List.range R).map fun r => (List.range B).map fun j => (List.range 4).map fun c =>
        i32 (f (B * r + j) c + i32 (((raw30 F (fun i => src.getD (off + (B * r + j) * 4 + i) 0) c : ℕ) : ℤ) * w))) := by
  unfold columnStep30
  rw [range_zip_map]
  refine mapM_map_some _ _ _ _ ?_
  intro r hr
  have hr : r < R := by simpa using hr
  have hle : B * r + B ≤ B * R := by
    have := Nat.mul_le_mul_left B (show r + 1 ≤ R from hr)
    rw [Nat.mul_add] at this; omega
  have e : B * (r + 1) = B * r + B := by ring
  obtain ⟨s, hs⟩ : ∃ s, slice? src (off + B * r * 4) (off + B * (r + 1) * 4) = some s :=
    ⟨_, slice?_eq_some (by rw [e]; omega) (by rw [e]; omega)⟩
  have hsl := slice?_length hs
  have hsl' : s.length = B * 4 := by rw [hsl, e]; omega
  simp only [hs, Option.bind_eq_bind, Option.bind_some]
  rw [chunksExact_eq_map hsl' (by norm_num), zip_map_range]
  refine mapM_map_some _ _ _ _ ?_
  intro j hj
  have hj : j < B := by simpa using hj
  simp only [load30_chunk F (show j * 4 + 4 ≤ s.length by omega), Option.bind_some, cgMul_map, cgAdd_map,
    Option.some.injEq]
  apply List.map_congr_left
  intro c _
  congr 3
  refine congrArg (fun t : ℕ => (t : ℤ) * w) ?_
  apply raw30_congr
  intro i hi
  rw [slice_getD hs _ _ (by rw [e]; omega)]
  congr 1; ring

theorem flatMap_range_get {B n : ℕ} (g : ℕ → ℕ → ℕ) {p : ℕ} (hp : p < B * n) (hn : 0 < n) :
    ((List.range B).flatMap fun j => (List.range n).map (g j))[p]? = some (g (p / n) (p % n)) := by
  induction B with
  | zero => simp at hp
  | succ B ih =>
    have hlen : ((List.range B).flatMap fun j => (List.range n).map (g j)).length = B * n := by
      simp [List.length_flatMap]
    rw [List.range_succ, List.flatMap_append]
    by_cases h : p < B * n
    · rw [List.getElem?_append_left (by omega)]; exact ih h
    · rw [List.getElem?_append_right (by omega), hlen]
      rw [Nat.add_mul, Nat.one_mul] at hp
      have hpn : p - B * n < n := by omega
      have hd : p / n = B := by
        rw [Nat.div_eq_iff hn]; constructor
        · rw [Nat.mul_comm] at *; omega
        · omega
      have hm : p % n = p - B * n := by
        have := Nat.div_add_mod p n
        rw [hd, Nat.mul_comm] at this; omega
      simp [hpn, hd, hm]

theorem flatMap_range_length (B n : ℕ) (g : ℕ → ℕ → ℕ) :
    ((List.range B).flatMap fun j => (List.range n).map (g j)).length = B * n := by
  simp [List.length_flatMap]

theorem columnStores30_write (F : Fmt30) {R B x : ℕ} {f : ℕ → ℕ → ℤ} (dst : List ℕ)
    (hd : (x + B * R) * 4 ≤ dst.length) :
    ∃ r, ((List.range R).zip ((List.range R).map fun r => (List.range B).map fun j =>
          (List.range 4).map (f (B * r + j)))).foldlM
      (fun d rs => writeAt? d (x * 4 + B * rs.1 * 4) (rs.2.flatMap (store30 F))) dst = some r ∧
      r.length = dst.length ∧
      (∀ j, j < B * R * 4 → r[x * 4 + j]? = some (enc30 F (f (j / 4)) (j % 4))) ∧
      (∀ p, (p < x * 4 ∨ (x + B * R) * 4 ≤ p) → r[p]? = dst[p]?) := by
  rw [range_zip_map]
  induction R with
  | zero => exact ⟨dst, by simp, rfl, by simp, by simp⟩
  | succ R ih =>
    have e : B * (R + 1) = B * R + B := by ring
    obtain ⟨r, h1, h2, h3, h4⟩ := ih (by rw [e] at hd; omega)
    rw [List.range_succ (n := R), List.map_append, List.foldlM_append, h1]
    simp only [List.map_cons, List.map_nil, List.foldlM_cons, List.foldlM_nil, Option.bind_eq_bind,
      Option.bind_some]
    have hv : ((List.range B).map fun j => (List.range 4).map (f (B * R + j))).flatMap (store30 F) =
        (List.range B).flatMap fun j => (List.range 4).map (enc30 F (f (B * R + j))) := by
      rw [List.flatMap_map]
      congr 1
      funext j
      exact store30_eq F _
    rw [hv]
    obtain ⟨r', g1, g2, g3, g4⟩ := writeAt?_spec (l := r) (a := x * 4 + B * R * 4)
      (v := (List.range B).flatMap fun j => (List.range 4).map (enc30 F (f (B * R + j))))
      (by rw [flatMap_range_length]; rw [e] at hd; omega)
    rw [flatMap_range_length] at g3 g4
    refine ⟨r', by rw [g1]; rfl, by omega, ?_, ?_⟩
    · intro j hj
      by_cases hj' : j < B * R * 4
      · rw [g4 _ (by omega)]; exact h3 j hj'
      · have hjj : j - B * R * 4 < B * 4 := by rw [e] at hj; omega
        have := g3 (j - B * R * 4) hjj
        rw [show x * 4 + B * R * 4 + (j - B * R * 4) = x * 4 + j by omega,
          flatMap_range_get (fun j => enc30 F (f (B * R + j))) hjj (by norm_num)] at this
        rw [this]
        rw [show B * R + (j - B * R * 4) / 4 = j / 4 by omega, show (j - B * R * 4) % 4 = j % 4 by omega]
    · intro p hp
      rw [e] at hp
      rw [g4 p (by omega), h4 p (by omega)]

/-- Accumulator of component `c` of pixel `x` of the vertical pass. -/
def vSum30 (F : Fmt30) (src : List ℕ) (stride : ℕ) (w : List ℤ) (b : Bounds) (x c : ℕ) : ℤ :=
  i32 (16384 + Spec.wsum b.size (fun k => w.getD k 0)
    (fun k => ((raw30 F (fun i => src.getD ((b.start + k) * stride + x * 4 + i) 0) c : ℕ) : ℤ)))

theorem columnBlock30_ok (F : Fmt30) {R B total : ℕ} {src : List ℕ} {stride : ℕ} {w : List ℤ} {b : Bounds}
    (hsz : 1 ≤ b.size) (hw : b.size ≤ w.length)
    (hsrc : (b.start + b.size - 1) * stride + total * 4 ≤ src.length) :
    BlockOKU 4 total (B * R) (columnBlock30 F R B src stride w b)
      (fun p => enc30 F (vSum30 F src stride w b (p / 4)) (p % 4)) := by
  intro x dst hl hx
  obtain ⟨w0, ws, rfl⟩ : ∃ a l, w = a :: l := by
    cases w with
    | nil => simp at hw; omega
    | cons a l => exact ⟨a, l, rfl⟩
  have hrow : ∀ k, k < b.size → stride * (b.start + k) + x * 4 + B * R * 4 ≤ src.length := by
    intro k hk
    have : stride * (b.start + k) ≤ (b.start + b.size - 1) * stride := by
      rw [Nat.mul_comm]; exact Nat.mul_le_mul_right _ (by omega)
    omega
  let P : ℕ → ℕ → ℕ → ℤ := fun q c k =>
    ((raw30 F (fun i => src.getD (stride * (b.start + k) + x * 4 + q * 4 + i) 0) c : ℕ) : ℤ)
  let G : ℕ → ℕ → ℕ → ℤ := fun n q c => accum (fun a v k => i32 (a + i32 (v * k))) ROUNDING_CONST (P q c)
    (fun k => (w0 :: ws).getD k 0) n
  have hstep : ∀ k, k < b.size → columnStep30 F R B src (stride * (b.start + k) + x * 4) ((w0 :: ws).getD k 0)
      ((List.range R).map fun r => (List.range B).map fun j => (List.range 4).map (G k (B * r + j))) =
      some ((List.range R).map fun r => (List.range B).map fun j => (List.range 4).map (G (k + 1) (B * r + j))) := by
    intro k hk
    rw [columnStep30_eq F (by have := hrow k hk; omega)]
    rfl
  have h0 : List.replicate R (List.replicate B (List.replicate 4 ROUNDING_CONST)) =
      (List.range R).map fun r => (List.range B).map fun j => (List.range 4).map (G 0 (B * r + j)) := by
    have : ∀ q, (List.range 4).map (G 0 q) = List.replicate 4 ROUNDING_CONST := by
      intro q; simp [G, accum, List.map_const']
    simp only [this, List.map_const', List.length_range]
  have hs0 := hstep 0 (by omega)
  simp only [Nat.add_zero, List.getD_cons_zero, Nat.zero_add] at hs0
  have hloop : ((((w0 :: ws).take b.size).drop 1).zipIdx).foldlM
      (fun st wj => columnStep30 F R B src (stride * (b.start + wj.2 + 1) + x * 4) wj.1 st)
      ((List.range R).map fun r => (List.range B).map fun j => (List.range 4).map (G 1 (B * r + j))) =
      some ((List.range R).map fun r => (List.range B).map fun j => (List.range 4).map (G b.size (B * r + j))) := by
    have hlen : ((((w0 :: ws).take b.size).drop 1).zipIdx).length = b.size - 1 := by
      simp only [List.length_zipIdx, List.length_drop, List.length_take]
      omega
    have := foldlM_take
      (fun st wj => columnStep30 F R B src (stride * (b.start + wj.2 + 1) + x * 4) wj.1 st)
      (((((w0 :: ws).take b.size).drop 1).zipIdx)) (fun i => ((w0 :: ws).getD (i + 1) 0, i))
      (fun n => (List.range R).map fun r => (List.range B).map fun j => (List.range 4).map (G (n + 1) (B * r + j)))
      (b.size - 1)
      (by
        intro i hi
        rw [List.getElem?_zipIdx, List.getElem?_drop, List.getElem?_take, if_pos (by omega),
          getElem?_eq_some_getD 0 (by omega), Nat.add_comm 1 i]
        simp)
      (by
        intro i hi
        have := hstep (i + 1) (by omega)
        rw [← this, Nat.add_assoc])
    rw [List.take_of_length_le (by omega)] at this
    rw [this]
    rw [Nat.sub_add_cancel hsz]
  obtain ⟨r, e1, e2, e3, e4⟩ := columnStores30_write F (R := R) (B := B) (x := x) (f := G b.size) dst (by omega)
  refine ⟨r, ?_, by omega, ?_, e4⟩
  · unfold columnBlock30
    simp only [Option.bind_eq_bind, h0, hs0, hloop, e1, Option.bind_some]
  · intro p hp1 hp2
    have := e3 (p - x * 4) (by omega)
    rw [show x * 4 + (p - x * 4) = p by omega] at this
    rw [this]
    rw [show (p - x * 4) % 4 = p % 4 by omega]
    have hG : G b.size ((p - x * 4) / 4) = vSum30 F src stride (w0 :: ws) b (p / 4) := by
      funext c
      simp only [G, P]
      rw [accum_fixed _ (by decide), vSum30]
      congr 3
      funext k
      refine congrArg _ ?_
      apply raw30_congr
      intro i hi
      congr 1
      rw [Nat.mul_comm stride]
      omega
    rw [hG]

theorem column30_spec (F : Fmt30) {src dst : List ℕ} {stride width : ℕ} {w : List ℤ} {b : Bounds}
    (hsz : 1 ≤ b.size) (hw : b.size ≤ w.length) (hd : dst.length = width * 4)
    (hsrc : (b.start + b.size - 1) * stride + width * 4 ≤ src.length) :
    ∃ r, column30 F b src dst stride w = some r ∧ r.length = dst.length ∧
      ∀ p, p < dst.length → r[p]? = some (enc30 F (vSum30 F src stride w b (p / 4)) (p % 4)) := by
  have ok : ∀ R B, BlockOKU 4 width (B * R) (columnBlock30 F R B src stride w b)
      (fun p => enc30 F (vSum30 F src stride w b (p / 4)) (p % 4)) :=
    fun R B => columnBlock30_ok F hsz hw hsrc
  have ht : dst.length / 4 = width := by omega
  obtain ⟨c1, r1, a1, a2, a3, a4, a5, a6⟩ := whileBlocksU_spec (margin := 64) (step := 64) (by omega) (by omega)
    (ok 4 16) width 0 dst hd (by omega) (by omega) (by simp)
  obtain ⟨c2, r2, b1, b2, b3, b4, b5, b6⟩ := whileBlocksU_spec (margin := 32) (step := 32) (by omega) (by omega)
    (ok 2 16) width c1 r1 a2 a4 (by omega) a6
  obtain ⟨c3, r3, d1, d2, d3, d4, d5, d6⟩ := whileBlocksU_spec (margin := 16) (step := 16) (by omega) (by omega)
    (ok 1 16) width c2 r2 b2 b4 (by omega) b6
  obtain ⟨c4, r4, f1, f2, f3, f4, f5, f6⟩ := whileBlocksU_spec (margin := 8) (step := 8) (by omega) (by omega)
    (ok 1 8) width c3 r3 d2 d4 (by omega) d6
  obtain ⟨c5, r5, g1, g2, g3, g4, g5, g6⟩ := whileBlocksU_spec (margin := 0) (step := 1) (by omega) (by omega)
    (ok 1 1) width c4 r4 f2 f4 (by omega) f6
  refine ⟨r5, ?_, by omega, fun p hp => g6 p (by omega)⟩
  unfold column30
  simp only [Option.bind_eq_bind, ht, a1, b1, d1, f1, g1, Option.bind_some]

end PicScale
