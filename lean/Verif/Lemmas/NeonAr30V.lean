import Verif.Lemmas.NeonAr30

/-! The NEON column handlers for packed 10-bit pixels. -/

namespace PicScale

open Finset Spec

/-- Eight lanes of every plane; `A i c` is the accumulator of component `c` of pixel `i`. -/
def planesOf (A : ℕ → ℕ → ℤ) : Planes :=
  ((List.range 8).map fun i => A i 0, (List.range 8).map fun i => A i 1, (List.range 8).map fun i => A i 2)

theorem vtapLane_map8 (tap : ℤ → ℕ → ℤ → ℤ) (f : ℕ → ℤ) (g : ℕ → ℕ) (w : ℤ) :
    vtapLane tap ((List.range 8).map f) ((List.range 8).map g) w = (List.range 8).map fun i => tap (f i) (g i) w := by
  unfold vtapLane
  rw [List.zipWith_map, List.zipWith_self]

theorem planesTap_of (tap : ℤ → ℕ → ℤ → ℤ) (t : Rgb30) (o : Ar30Order) (W : ℕ → ℕ) (w : ℤ) (A : ℕ → ℕ → ℤ) :
    planesTap tap t o ((List.range 8).map W) w (planesOf A) = planesOf fun i c => tap (A i c) (vfield t o c (W i)) w := by
  unfold planesTap planesOf vunzip3
  simp only [List.map_map]
  refine congrArg₂ _ ?_ (congrArg₂ _ ?_ ?_) <;> exact vtapLane_map8 _ _ _ _

theorem planesMul_of (t : Rgb30) (o : Ar30Order) (W : ℕ → ℕ) (w : ℤ) :
    planesMul t o ((List.range 8).map W) w = planesOf fun i c => mulRdm 5 (vfield t o c (W i)) w := by
  unfold planesMul planesOf vunzip3
  simp only [List.map_map]
  rfl

theorem planesOf_congr {A B : ℕ → ℕ → ℤ} (h : ∀ i c, i < 8 → c < 3 → A i c = B i c) : planesOf A = planesOf B := by
  unfold planesOf
  refine congrArg₂ _ ?_ (congrArg₂ _ ?_ ?_) <;>
  · apply List.map_congr_left
    intro i hi
    exact h i _ (by simpa using hi) (by omega)

theorem planesStore_of {fin : ℤ → ℕ} (hf : ∀ v, fin v ≤ 1023) (t : Rgb30) (o : Ar30Order) (A : ℕ → ℕ → ℤ) :
    planesStore fin t o (planesOf A) = (List.range 8).flatMap fun i => (List.range 4).map (pxByte t o fun c => fin (A i c)) := by
  unfold planesStore planesOf vzipStore
  simp only [List.length_map, List.length_range, List.map_map]
  apply List.flatMap_congr
  intro i hi
  have hi : i < 8 := by simpa using hi
  have g : ∀ c, ((List.range 8).map (fin ∘ fun i => A i c)).getD i 0 = fin (A i c) := by
    intro c
    rw [List.getD_eq_getElem?_getD, List.getElem?_map, List.getElem?_range hi]
    rfl
  rw [g, g, g]
  exact vzipWord_bytes t o (q := fun c => fin (A i c)) (by have := hf (A i 0); omega)

variable {t : Rgb30} {o : Ar30Order} {src : List ℕ} {stride : ℕ} {w : List ℤ} {b : Bounds} {width : ℕ}

/-- The word of pixel `i` from column `x` in row `k` of the window. -/
theorem vfield_col (x i k : ℕ) {c : ℕ} (hc : c < 3) :
    vfield t o c (word4 fun l => src.getD (stride * (b.start + k) + x * 4 + 4 * i + l) 0 % 256) =
      colRaw t o src stride b (x + i) c k := by
  rw [vfield_raw t o _ hc]
  unfold colRaw
  apply raw30_congr
  intro l _
  congr 2
  ring

/-- One component of pixel `x` written by the blocks of `neonColumn30`. -/
def colN (w : ℕ → ℤ) (p : ℕ → ℕ) (n : ℕ) : ℕ := narrowQ 10 (tapsF tapQ NEON16_ROUNDING w p n)

/-- Accumulator of `ar30RdmBlock` after `n ≥ 1` rows. -/
def accR (w : ℕ → ℤ) (p : ℕ → ℕ) : ℕ → ℤ
  | 0 => 0
  | 1 => mulRdm 5 (p 0) (w 0)
  | n + 2 => tapRdm 5 (accR w p (n + 1)) (p (n + 1)) (w (n + 1))

/-- One component of a pixel written by `ar30RdmBlock`. -/
def colR (w : ℕ → ℤ) (p : ℕ → ℕ) (n : ℕ) : ℕ := narrowRdm5 (accR w p n)

theorem store8 {fin : ℤ → ℕ} (hf : ∀ v, fin v ≤ 1023) {A : ℕ → ℕ → ℤ} {x : ℕ} {dst : List ℕ}
    (hl : dst.length = width * 4) (hx : x + 8 ≤ width) :
    ∃ r, writeAt? dst (x * 4) (planesStore fin t o (planesOf A)) = some r ∧ r.length = width * 4 ∧
      (∀ p, x * 4 ≤ p → p < (x + 8) * 4 → r[p]? = some (pxByte t o (fun c => fin (A (p / 4 - x) c)) (p % 4))) ∧
      (∀ p, (p < x * 4 ∨ (x + 8) * 4 ≤ p) → r[p]? = dst[p]?) := by
  obtain ⟨r, f1, f2, f3, f4⟩ := writeAt?_spec (l := dst) (a := x * 4) (v := planesStore fin t o (planesOf A))
    (by rw [planesStore_of hf, flatMap_range_length]; omega)
  rw [planesStore_of hf, flatMap_range_length] at f3 f4
  refine ⟨r, f1, by omega, ?_, fun p hp => f4 p (by omega)⟩
  intro p hp1 hp2
  have := f3 (p - x * 4) (by omega)
  rw [show x * 4 + (p - x * 4) = p by omega] at this
  rw [this, flatMap_range_get _ (by omega) (by omega)]
  rw [show (p - x * 4) / 4 = p / 4 - x by omega, show (p - x * 4) % 4 = p % 4 by omega]

theorem ar30NeonBlock_ok (hw : b.size ≤ w.length) (hsrc : (b.start + b.size - 1) * stride + width * 4 ≤ src.length) :
    BlockOKU 4 width 8 (ar30NeonBlock t o b src stride w) (fun p => pxByte t o (fun c =>
      colN (fun k => w.getD k 0) (colRaw t o src stride b (p / 4) c) b.size) (p % 4)) := by
  intro x dst hl hx
  have e1 := forRange_spec (a := 0) (b := b.size)
    (body := fun j st => do
      let w ← w[j]?
      let ws ← vldWords src (stride * (b.start + j) + x * 4) 8
      some (planesTap tapQ t o ws w st))
    (inv := fun n => planesOf fun i c => tapsF tapQ NEON16_ROUNDING (fun k => w.getD k 0) (colRaw t o src stride b (x + i) c) n)
    (by omega)
    (by
      intro j _ hj
      have hr := row_room hsrc hj
      rw [getElem?_eq_some_getD 0 (by omega), vldWords_eq (by omega)]
      simp only [Option.bind_eq_bind, Option.bind_some]
      rw [planesTap_of]
      refine congrArg some (planesOf_congr fun i c _ hc => ?_)
      rw [vfield_col x i j hc]
      rfl)
  obtain ⟨r, f1, f2, f3, f4⟩ := store8 (t := t) (o := o) (fin := narrowQ 10) (narrowQ_le 10)
    (A := fun i c => tapsF tapQ NEON16_ROUNDING (fun k => w.getD k 0) (colRaw t o src stride b (x + i) c) b.size) hl hx
  refine ⟨r, ?_, f2, fun p hp1 hp2 => ?_, f4⟩
  · unfold ar30NeonBlock
    rw [Nat.min_eq_left hw]
    simp only [Option.bind_eq_bind] at e1 ⊢
    have e0 : planesInit = planesOf fun i c =>
        tapsF tapQ NEON16_ROUNDING (fun k => w.getD k 0) (colRaw t o src stride b (x + i) c) 0 := rfl
    rw [e0, e1]
    exact f1
  · rw [f3 p hp1 hp2, show x + (p / 4 - x) = p / 4 by omega]
    rfl

theorem ar30RdmBlock_ok (hs : 1 ≤ b.size) (hw : b.size ≤ w.length)
    (hsrc : (b.start + b.size - 1) * stride + width * 4 ≤ src.length) :
    BlockOKU 4 width 8 (ar30RdmBlock t o b src stride w) (fun p => pxByte t o (fun c =>
      colR (fun k => w.getD k 0) (colRaw t o src stride b (p / 4) c) b.size) (p % 4)) := by
  intro x dst hl hx
  have r0 := row_room hsrc hs
  rw [Nat.add_zero] at r0
  have e1 := forRange_spec (a := 1) (b := b.size)
    (body := fun j st => do
      let w ← w[j]?
      let ws ← vldWords src (stride * (b.start + j) + x * 4) 8
      some (planesTap (tapRdm 5) t o ws w st))
    (inv := fun n => planesOf fun i c => accR (fun k => w.getD k 0) (colRaw t o src stride b (x + i) c) n)
    hs
    (by
      intro j h1 hj
      have hr := row_room hsrc hj
      rw [getElem?_eq_some_getD 0 (by omega), vldWords_eq (by omega)]
      simp only [Option.bind_eq_bind, Option.bind_some]
      rw [planesTap_of]
      refine congrArg some (planesOf_congr fun i c _ hc => ?_)
      rw [vfield_col x i j hc]
      obtain ⟨n, rfl⟩ : ∃ n, j = n + 1 := ⟨j - 1, by omega⟩
      rfl)
  obtain ⟨r, f1, f2, f3, f4⟩ := store8 (t := t) (o := o) (fin := narrowRdm5) narrowRdm5_le
    (A := fun i c => accR (fun k => w.getD k 0) (colRaw t o src stride b (x + i) c) b.size) hl hx
  refine ⟨r, ?_, f2, fun p hp1 hp2 => ?_, f4⟩
  · unfold ar30RdmBlock
    rw [Nat.min_eq_left hw, getElem?_eq_some_getD 0 (by omega), vldWords_eq (by omega)]
    simp only [Option.bind_eq_bind, Option.bind_some] at e1 ⊢
    have e0 : (planesMul t o ((List.range 8).map fun i => word4 fun k => src.getD (stride * b.start + x * 4 + 4 * i + k) 0 % 256)
        (w.getD 0 0)) = planesOf fun i c => accR (fun k => w.getD k 0) (colRaw t o src stride b (x + i) c) 1 := by
      rw [planesMul_of]
      refine planesOf_congr fun i c _ hc => ?_
      have := vfield_col (t := t) (o := o) (src := src) (stride := stride) (b := b) x i 0 hc
      rw [Nat.add_zero] at this
      rw [this]
      rfl
    rw [e0, e1]
    exact f1
  · rw [f3 p hp1 hp2, show x + (p / 4 - x) = p / 4 by omega]
    rfl

theorem ar30NeonTail_ok (hw : b.size ≤ w.length) (hsrc : (b.start + b.size - 1) * stride + width * 4 ≤ src.length)
    {diff x : ℕ} (hd : diff ≤ 8) (hx : x + diff ≤ width) (dst : List ℕ) (hl : dst.length = width * 4) :
    ∃ r, ar30NeonTail t o b src stride w diff x dst = some r ∧ r.length = dst.length ∧
      (∀ p, x * 4 ≤ p → p < (x + diff) * 4 → r[p]? = some (pxByte t o (fun c =>
        colN (fun k => w.getD k 0) (colRaw t o src stride b (p / 4) c) b.size) (p % 4))) ∧
      (∀ p, (p < x * 4 ∨ (x + diff) * 4 ≤ p) → r[p]? = dst[p]?) := by
  let W : ℕ → ℕ → ℕ := fun k i => if i < diff then word4 fun l => src.getD (stride * (b.start + k) + x * 4 + 4 * i + l) 0 % 256 else 0
  let R : ℕ → ℕ → ℕ → ℕ := fun i c k => vfield t o c (W k i)
  have tr : ∀ k, ((List.range diff).map fun i => word4 fun l => src.getD (stride * (b.start + k) + x * 4 + 4 * i + l) 0 % 256) ++
      List.replicate (8 - diff) 0 = (List.range 8).map (W k) := by
    intro k
    apply List.ext_getElem?
    intro i
    by_cases h1 : i < diff
    · rw [List.getElem?_append_left (by simp; omega), List.getElem?_map, List.getElem?_range h1, List.getElem?_map,
        List.getElem?_range (by omega)]
      simp only [Option.map_some, W, if_pos h1]
    · rw [List.getElem?_append_right (by simp; omega), List.getElem?_replicate, List.getElem?_map]
      simp only [List.length_map, List.length_range]
      by_cases h2 : i < 8
      · rw [if_pos (by omega), List.getElem?_range h2]
        simp only [Option.map_some, W, if_neg h1]
      · rw [if_neg (by omega), List.getElem?_eq_none (by simp; omega)]
        rfl
  have e1 := forRange_spec (a := 0) (b := b.size)
    (body := fun j st => do
      let w ← w[j]?
      let ws ← vldWords src (stride * (b.start + j) + x * 4) diff
      some (planesTap tapQ t o (ws ++ List.replicate (8 - diff) 0) w st))
    (inv := fun n => planesOf fun i c => tapsF tapQ NEON16_ROUNDING (fun k => w.getD k 0) (R i c) n)
    (by omega)
    (by
      intro j _ hj
      have hr := row_room hsrc hj
      rw [getElem?_eq_some_getD 0 (by omega), vldWords_eq (by omega)]
      simp only [Option.bind_eq_bind, Option.bind_some]
      rw [tr j, planesTap_of]
      rfl)
  have hst := planesStore_of (narrowQ_le 10) t o
    (fun i c => tapsF tapQ NEON16_ROUNDING (fun k => w.getD k 0) (R i c) b.size)
  obtain ⟨r, f1, f2, f3, f4⟩ := writeAt?_spec (l := dst) (a := x * 4)
    (v := (planesStore (narrowQ 10) t o (planesOf fun i c => tapsF tapQ NEON16_ROUNDING (fun k => w.getD k 0) (R i c) b.size)).take (diff * 4))
    (by rw [hst, List.length_take, flatMap_range_length]; omega)
  rw [hst, List.length_take, flatMap_range_length, Nat.min_eq_left (show diff * 4 ≤ 8 * 4 by omega)] at f3 f4
  refine ⟨r, ?_, by omega, ?_, fun p hp => f4 p (by omega)⟩
  · unfold ar30NeonTail
    rw [Nat.min_eq_left hw]
    simp only [Option.bind_eq_bind] at e1 ⊢
    have e0 : planesInit = planesOf fun i c => tapsF tapQ NEON16_ROUNDING (fun k => w.getD k 0) (R i c) 0 := rfl
    rw [e0, e1]
    exact f1
  · intro p hp1 hp2
    have := f3 (p - x * 4) (by omega)
    rw [show x * 4 + (p - x * 4) = p by omega] at this
    rw [this, List.getElem?_take, if_pos (by omega), flatMap_range_get _ (by omega) (by omega),
      show (p - x * 4) % 4 = p % 4 by omega]
    refine congrArg some (pxByte_congr (fun c hc => ?_) _)
    unfold colN
    refine congrArg (narrowQ 10) (tapsF_congr (fun _ _ => rfl) fun k _ => ?_)
    simp only [R, W]
    rw [if_pos (by omega), vfield_col x _ k hc, show x + (p - x * 4) / 4 = p / 4 by omega]

theorem neonColumn30_spec {dst : List ℕ} (hw : b.size ≤ w.length) (hd : dst.length = width * 4)
    (hsrc : (b.start + b.size - 1) * stride + width * 4 ≤ src.length) :
    ∃ r, neonColumn30 t o b src dst stride w = some r ∧ r.length = dst.length ∧
      ∀ p, p < dst.length → r[p]? = some (pxByte t o (fun c =>
        colN (fun k => w.getD k 0) (colRaw t o src stride b (p / 4) c) b.size) (p % 4)) := by
  have ht : dst.length / 4 = width := by omega
  obtain ⟨c1, r1, a1, a2, a3, a4, a5, a6⟩ := whileBlocksU_spec (margin := 8) (step := 8) (by omega) (by omega)
    (ar30NeonBlock_ok (t := t) (o := o) hw hsrc) width 0 dst hd (by omega) (by omega) (by simp)
  unfold neonColumn30
  simp only [Option.bind_eq_bind, ht, a1, Option.bind_some]
  split_ifs with hc
  · obtain ⟨r, e1, e2, e3, e4⟩ := ar30NeonTail_ok (t := t) (o := o) hw hsrc (diff := width - c1) (x := c1) (by omega) (by omega) r1 a2
    refine ⟨r, e1, by omega, fun p hp => ?_⟩
    by_cases h : p < c1 * 4
    · rw [e4 p (Or.inl h), a6 p h]
    · exact e3 p (by omega) (by omega)
  · exact ⟨r1, rfl, by omega, fun p hp => a6 p (by omega)⟩

/-! ### rdm -/

/-- The position where blocks of `step` stop. -/
theorem whileBlocks_end {α : Type} {step total : ℕ} (hs : 1 ≤ step) {body : ℕ → List α → Option (List α)} :
    ∀ fuel cx (dst : List α) cx' r, total ≤ fuel + cx → cx < total →
      whileBlocks step step total body fuel cx dst = some (cx', r) → cx' = cx + (total - 1 - cx) / step * step := by
  intro fuel
  induction fuel with
  | zero => intro cx dst cx' r h1 h2; omega
  | succ fuel ih =>
    intro cx dst cx' r h1 h2 h
    unfold whileBlocks at h
    by_cases hc : cx + step < total
    · rw [if_pos hc] at h
      simp only [Option.bind_eq_bind] at h
      obtain ⟨d, _, h⟩ := Option.bind_eq_some_iff.1 h
      have := ih _ _ _ _ (by omega) (by omega) h
      rw [this]
      have e : (total - 1 - cx) / step = (total - 1 - (cx + step)) / step + 1 := by
        rw [show total - 1 - cx = total - 1 - (cx + step) + step by omega, Nat.add_div_right _ (by omega)]
      rw [e]
      ring
    · rw [if_neg hc] at h
      simp only [Option.some.injEq, Prod.mk.injEq] at h
      rw [Nat.div_eq_of_lt (by omega)]
      omega

theorem whileBlocks_pos {α : Type} {margin step total : ℕ} {body : ℕ → List α → Option (List α)} :
    ∀ fuel cx (dst : List α) cx' r, whileBlocks margin step total body fuel cx dst = some (cx', r) → cx ≤ cx' := by
  intro fuel
  induction fuel with
  | zero => intro cx dst cx' r h; simp [whileBlocks] at h; omega
  | succ fuel ih =>
    intro cx dst cx' r h
    unfold whileBlocks at h
    by_cases hc : cx + margin < total
    · rw [if_pos hc] at h
      simp only [Option.bind_eq_bind] at h
      obtain ⟨d, _, h⟩ := Option.bind_eq_some_iff.1 h
      have := ih _ _ _ _ h
      omega
    · rw [if_neg hc] at h
      simp at h; omega

theorem pxByte_enc (t : Rgb30) (o : Ar30Order) (S : ℕ → ℤ) (i : ℕ) :
    enc30 (fmtLE t o) S i = pxByte t o (fun c => saturate30 1023 (S c)) i := rfl

/-- One component of pixel `x` of a row of `width` written by `rdmColumn30`. -/
def colRdm (width x : ℕ) (w : ℕ → ℤ) (p : ℕ → ℕ) (n : ℕ) : ℕ :=
  if x < tailColumn width then colR w p n
  else saturate30 1023 (i32 (16384 + wsum n w fun k => (p k : ℤ)))

theorem rdmColumn30_spec {dst : List ℕ} (hs : 1 ≤ b.size) (hw : b.size ≤ w.length) (hd : dst.length = width * 4) (h0 : 0 < width)
    (hsrc : (b.start + b.size - 1) * stride + width * 4 ≤ src.length) (hb : ∀ i, src.getD i 0 < 256) :
    ∃ r, rdmColumn30 t o b src dst stride w = some r ∧ r.length = dst.length ∧
      ∀ p, p < dst.length → r[p]? = some (pxByte t o (fun c =>
        colRdm width (p / 4) (fun k => w.getD k 0) (colRaw t o src stride b (p / 4) c) b.size) (p % 4)) := by
  have ht : dst.length / 4 = width := by omega
  have vS : ∀ x c, vSum30 (fmtLE t o) src stride w b x c =
      i32 (16384 + wsum b.size (fun k => w.getD k 0) fun k => (colRaw t o src stride b x c k : ℤ)) := by
    intro x c
    unfold vSum30 colRaw
    simp only [Nat.mod_eq_of_lt (hb _), Nat.mul_comm stride]
  obtain ⟨c1, r1, a1, a2, a3, a4, a5, a6⟩ := whileBlocksU_spec (margin := 8) (step := 8) (by omega) (by omega)
    (ar30RdmBlock_ok (t := t) (o := o) hs hw hsrc) width 0 dst hd (by omega) (by omega) (by simp)
  have hc1 : c1 = tailColumn width := by
    have := whileBlocks_end (by omega) _ _ _ _ _ (by omega) h0 a1
    unfold tailColumn; omega
  have step : ∀ B, BlockOKU 4 width B (columnBlock30 (fmtLE t o) 1 B src stride w b)
      (fun p => pxByte t o (fun c => saturate30 1023 (vSum30 (fmtLE t o) src stride w b (p / 4) c)) (p % 4)) := by
    intro B
    have := columnBlock30_ok (fmtLE t o) (R := 1) (B := B) (total := width) hs hw hsrc
    rw [Nat.mul_one] at this
    exact this
  let val : ℕ → ℕ := fun p => pxByte t o (fun c =>
    colRdm width (p / 4) (fun k => w.getD k 0) (colRaw t o src stride b (p / 4) c) b.size) (p % 4)
  -- a loop of the portable code, from a column of the tail on
  have loop : ∀ margin B cx (d : List ℕ), 1 ≤ B → B ≤ margin + 1 → d.length = width * 4 → tailColumn width ≤ cx → cx ≤ width →
      (∀ p, p < cx * 4 → d[p]? = some (val p)) →
      ∃ cx' r, whileBlocks margin B width (columnBlock30 (fmtLE t o) 1 B src stride w b) width cx d = some (cx', r) ∧
        r.length = width * 4 ∧ cx ≤ cx' ∧ cx' ≤ width ∧ width ≤ cx' + margin ∧ (∀ p, p < cx' * 4 → r[p]? = some (val p)) := by
    intro margin B cx d h1 h2 h3 h4 h5 h6
    have key : ∀ fuel cx (d : List ℕ), d.length = width * 4 → tailColumn width ≤ cx → cx ≤ width → width ≤ fuel + cx →
        (∀ p, p < cx * 4 → d[p]? = some (val p)) →
        ∃ cx' r, whileBlocks margin B width (columnBlock30 (fmtLE t o) 1 B src stride w b) fuel cx d = some (cx', r) ∧
          r.length = width * 4 ∧ cx ≤ cx' ∧ cx' ≤ width ∧ width ≤ cx' + margin ∧ (∀ p, p < cx' * 4 → r[p]? = some (val p)) := by
      intro fuel
      induction fuel with
      | zero => intro cx d h3 h4 h5 h6 h7; exact ⟨cx, d, rfl, h3, le_refl _, h5, by omega, h7⟩
      | succ fuel ih =>
        intro cx d h3 h4 h5 h6 h7
        unfold whileBlocks
        by_cases h : cx + margin < width
        · obtain ⟨r, g1, g2, g3, g4⟩ := step B cx d h3 (by omega)
          rw [if_pos h, g1]
          simp only [Option.bind_eq_bind, Option.bind_some]
          obtain ⟨cx', r', e1, e2, e3, e4, e5, e6⟩ := ih (cx + B) r g2 (by omega) (by omega) (by omega) (by
            intro p hp
            by_cases hpc : p < cx * 4
            · rw [g4 p (Or.inl hpc)]; exact h7 p hpc
            · rw [g3 p (by omega) hp]
              refine congrArg some (pxByte_congr (fun c _ => ?_) _)
              unfold colRdm
              rw [if_neg (by omega), vS])
          exact ⟨cx', r', e1, e2, by omega, e4, e5, e6⟩
        · rw [if_neg h]
          exact ⟨cx, d, rfl, h3, le_refl _, h5, by omega, h7⟩
    exact key width cx d h3 h4 h5 (by omega) h6
  have a6' : ∀ p, p < c1 * 4 → r1[p]? = some (val p) := by
    intro p hp
    rw [a6 p hp]
    refine congrArg some (pxByte_congr (fun c _ => ?_) _)
    unfold colRdm
    rw [if_pos (by omega)]
  obtain ⟨c2, r2, b1, b2, b3, b4, b5, b6⟩ := loop 4 4 c1 r1 (by omega) (by omega) a2 (by omega) a4 a6'
  obtain ⟨c3, r3, d1, d2, d3, d4, d5, d6⟩ := loop 0 1 c2 r2 (by omega) (by omega) b2 (by omega) b4 b6
  refine ⟨r3, ?_, by omega, fun p hp => d6 p (by omega)⟩
  unfold rdmColumn30
  simp only [Option.bind_eq_bind, ht, a1, b1, d1, Option.bind_some]

end PicScale
