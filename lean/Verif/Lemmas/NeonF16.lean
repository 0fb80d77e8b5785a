import Verif.Model.NeonF16
import Verif.Lemmas.F16Pass

/-! The NEON handlers for f16 images: what they compute, and that they stay in bounds. -/

namespace PicScale

open Spec

variable {H A B : Type}

/-! ### vertical -/

section vertical

variable {src : List H} {stride : ℕ} {b : Bounds} {w : List ℚ} {total : ℕ}

theorem getD_append_left' {α : Type} {l m : List α} {i : ℕ} (d : α) (h : i < l.length) : (l ++ m).getD i d = l.getD i d := by
  rw [List.getD_eq_getElem?_getD, List.getD_eq_getElem?_getD, List.getElem?_append_left h]

theorem list_eq_range_map {α : Type} (l : List α) (d : α) : l = (List.range l.length).map fun i => l.getD i d := by
  apply List.ext_getElem?
  intro i
  rw [List.getElem?_map]
  by_cases h : i < l.length
  · rw [List.getElem?_range h, Option.map_some, getElem?_eq_some_getD d h]
  · rw [List.getElem?_eq_none (by omega), List.getElem?_eq_none (by simpa using h)]
    rfl

theorem vPartH_ok (v : NeonLanes H B) (zh : H) (h : VPre src stride w b total) {left x : ℕ} {dst : List H}
    (hl : dst.length = total) (hx : x + left ≤ total) (h8 : left ≤ 8) :
    ∃ r, vPartH v zh left b src stride w x dst = some r ∧ r.length = total ∧
      (∀ p, x ≤ p → p < x + left → r[p]? = some (vAccH v.arith v.cv v.nv true src stride b w p)) ∧
      (∀ p, (p < x ∨ x + left ≤ p) → r[p]? = dst[p]?) := by
  have key : ∀ n, n ≤ b.size → ∃ g : ℕ → B,
      (∀ i, i < left → g i = vAccF v.arith true (src.map v.cv) stride b w n (x + i)) ∧
      forRange 0 n (fun j (st : List B × List B) => do
        let w ← w[j]?
        let row ← slice? src (stride * (b.start + j) + x) (stride * (b.start + j) + x + left)
        let t := row ++ List.replicate (8 - left) zh
        some (preferV v.arith true st.1 ((t.take 4).map v.cv) (set1v (v.arith.weight w)),
          preferV v.arith true st.2 ((t.drop 4).map v.cv) (set1v (v.arith.weight w))))
        (set1v v.arith.zero, set1v v.arith.zero) =
      some ((List.range 4).map g, (List.range 4).map fun i => g (4 + i)) := by
    intro n
    induction n with
    | zero => intro _; exact ⟨fun _ => v.arith.zero, fun _ _ => rfl, by simp only [set1v_eq]; rfl⟩
    | succ n ih =>
      intro hn
      obtain ⟨g, g1, g2⟩ := ih (by omega)
      have r0 := h.row (k := n) (by omega)
      unfold forRange at g2 ⊢
      rw [Nat.sub_zero, List.range'_1_concat, List.foldlM_append]
      rw [Nat.sub_zero] at g2
      rw [g2]
      simp only [Option.bind_eq_bind, Option.bind_some, List.foldlM_cons, List.foldlM_nil, Nat.zero_add]
      rw [h.getQ (by omega), slice?_eq_some (by omega) (by omega), Nat.add_sub_cancel_left]
      simp only [Option.bind_some]
      have hrow := slice_eq_map_range zh (l := src) (a := stride * (b.start + n) + x) (n := left) (by omega)
      set t : List H := List.take left (List.drop (stride * (b.start + n) + x) src) ++ List.replicate (8 - left) zh with ht
      have tl : t.length = 8 := by rw [ht, hrow]; simp; omega
      have t1 : t = (List.range 8).map fun i => t.getD i zh := by
        conv_lhs => rw [list_eq_range_map t zh, tl]
      have ta : t.take 4 = (List.range 4).map fun i => t.getD i zh := by
        conv_lhs => rw [t1, ← List.map_take, List.take_range]
        rfl
      have tb : t.drop 4 = (List.range 4).map fun i => t.getD (4 + i) zh := by
        conv_lhs => rw [t1]
        simp [List.range_succ]
      have td : ∀ i, i < left → t.getD i zh = src.getD (stride * (b.start + n) + x + i) zh := by
        intro i hi
        rw [ht, hrow, getD_append_left' _ (by simpa using hi), getD_range_map _ _ hi]
      rw [ta, tb, List.map_map, List.map_map]
      refine ⟨fun i => v.arith.mulAdd true (g i) (v.cv (t.getD i zh)) (v.arith.weight (w.getD n 0)), ?_, ?_⟩
      · intro i hi
        dsimp only
        rw [g1 i hi, td i hi]
        unfold vAccF
        rw [chain]
        congr 1
        rw [getD_map' v.cv src _ _ zh (by omega)]
        congr 2
        omega
      · rw [set1v_eq, preferV_map, preferV_map]
        rfl
  obtain ⟨g, g1, g2⟩ := key b.size le_rfl
  unfold vPartH
  rw [g2]
  simp only [Option.bind_eq_bind, Option.bind_some]
  have e1 : (((List.range 4).map g ++ (List.range 4).map fun i => g (4 + i)).take left).map v.nv =
      (List.range left).map fun c => vAccH v.arith v.cv v.nv true src stride b w (x + c) := by
    rw [show ((List.range 4).map g ++ (List.range 4).map fun i => g (4 + i)) = (List.range 8).map g by
      simp [List.range_succ], ← List.map_take, List.take_range, Nat.min_eq_left h8, List.map_map]
    refine List.map_congr_left fun i hi => ?_
    rw [Function.comp_apply, g1 i (by simpa using hi)]
    rfl
  rw [e1]
  exact write_block (val := vAccH v.arith v.cv v.nv true src stride b w) dst hl hx

theorem neonColumnH_ok (v : NeonLanes H B) (zh : H) {dst : List H} (h : VPre src stride w b dst.length) :
    ∃ r, neonColumnH v zh b src dst stride w = some r ∧ r.length = dst.length ∧
      ∀ p, p < dst.length → r[p]? = some (vAccH v.arith v.cv v.nv true src stride b w p) := by
  unfold neonColumnH
  dsimp only
  obtain ⟨c1, r1, e1, l1, _, m1, _, v1⟩ := whileBlocks_spec (margin := 48) (step := 48) (by norm_num) (by norm_num)
    (vBlockH_ok v.arith v.cv v.nv true h 12) dst.length 0 dst rfl (Nat.zero_le _) (by omega) (fun p hp => absurd hp (by omega))
  obtain ⟨c2, r2, e2, l2, _, m2, _, v2⟩ := whileBlocks_spec (margin := 32) (step := 32) (by norm_num) (by norm_num)
    (vBlockH_ok v.arith v.cv v.nv true h 8) dst.length c1 r1 l1 m1 (by omega) v1
  obtain ⟨c3, r3, e3, l3, _, m3, _, v3⟩ := whileBlocks_spec (margin := 16) (step := 16) (by norm_num) (by norm_num)
    (vBlockH_ok v.arith v.cv v.nv true h 4) dst.length c2 r2 l2 m2 (by omega) v2
  obtain ⟨c4, r4, e4, l4, _, m4, u4, v4⟩ := whileBlocks_spec (margin := 8) (step := 8) (by norm_num) (by norm_num)
    (vBlockH_ok v.arith v.cv v.nv true h 2) dst.length c3 r3 l3 m3 (by omega) v3
  rw [e1]
  simp only [Option.bind_eq_bind, Option.bind_some]
  rw [e2]
  simp only [Option.bind_some]
  rw [e3]
  simp only [Option.bind_some]
  rw [e4]
  simp only [Option.bind_some]
  by_cases hc : 0 < dst.length - c4
  · rw [if_pos hc]
    obtain ⟨r, b1, b2, b3, b4⟩ := vPartH_ok v zh h (left := dst.length - c4) (x := c4) l4 (by omega) (by omega)
    refine ⟨r, b1, b2, fun p hp => ?_⟩
    by_cases h4 : p < c4
    · rw [b4 p (Or.inl h4)]; exact v4 p h4
    · exact b3 p (by omega) (by omega)
  · rw [if_neg hc]
    exact ⟨r4, rfl, l4, fun p hp => v4 p (by omega)⟩

end vertical

/-! ### horizontal -/

/-- Sample `T k c` of the window, in channel `c`, for tap `k`. -/
def winSum (a : VecOps B) (T : ℕ → ℕ → ℕ) (w : List ℚ) (b : Bounds) (N : ℕ) (f : ℕ → B) (n c : ℕ) : B :=
  chain (a.mulAdd true) a.zero (fun k => f (b.start * N + T k c)) (wF a w) n

/-- Which sample of the window of `n` pixels the RGB code multiplies with weight `k`, for channel `c`. -/
def rgbTap (good : Bool) (n k c : ℕ) : ℕ :=
  if good then k * 3 + c
  else if k < 4 * ((n - 1) / 4) then
    (if k % 4 = 2 ∧ c = 2 then (k - 2) * 3
    else if k % 4 = 3 then (k - 3) * 3 + (c + 1)
    else k * 3 + c)
  else if 2 * ((n - 1) / 2) ≤ k ∧ c = 2 then k * 3
  else k * 3 + c

/-- Which sample of the window the RGBA code multiplies with weight `k`. -/
def rgbaTap (eight : Bool) (n k c : ℕ) : ℕ :=
  if (eight = true → 8 * ((n - 1) / 8) ≤ k) ∧ k < 4 * ((n - 1) / 4) ∧ k % 4 = 3 then (k - 2) * 4 + c
  else k * 4 + c

section handlers

variable {src : List H} {offs : List ℕ} {w : List ℚ} {b : Bounds}

/-- The accumulator after `n` taps. -/
def TapInv (v : NeonLanes H B) (M N : ℕ) (T : ℕ → ℕ → ℕ) (src : List H) (w : List ℚ) (b : Bounds) (t n : ℕ) (s : List B) :
    Prop := Lanes M (winSum v.arith T w b N (fun i => (src.map v.cv).getD (t + i) v.arith.zero) n) s

theorem TapInv.next {v : NeonLanes H B} {M N : ℕ} {T : ℕ → ℕ → ℕ} {t n : ℕ} {s p q : List B}
    (hs : TapInv v M N T src w b t n s)
    (hp : Lanes M (fun c => (src.map v.cv).getD (t + (b.start * N + T n c)) v.arith.zero) p)
    (hq : Lanes M (fun _ => wF v.arith w n) q) :
    TapInv v M N T src w b t (n + 1) (preferV v.arith true s p q) := Lanes.step hs hp hq

theorem tap_init (v : NeonLanes H B) (M N : ℕ) (T : ℕ → ℕ → ℕ) :
    List.Forall₂ (fun t s => TapInv v M N T src w b t 0 s) offs (offs.map fun _ => set1v v.arith.zero) :=
  forall₂_init _ _ fun _ _ => Lanes.set1 M _

theorem slice_map_range (v : NeonLanes H B) {o n : ℕ} (h : o + n ≤ src.length) :
    slice? src o (o + n) = some ((src.drop o).take n) ∧
    ((src.drop o).take n).map v.cv = (List.range n).map fun i => (src.map v.cv).getD (o + i) v.arith.zero := by
  refine ⟨?_, ?_⟩
  · rw [slice?_eq_some (by omega) h, Nat.add_sub_cancel_left]
  · rw [List.map_take, List.map_drop, slice_eq_map_range v.arith.zero (by rw [List.length_map]; omega)]

theorem vext_map (cv : H → B) (n : ℕ) (p q : List H) : (vextH n p q).map cv = vextH n (p.map cv) (q.map cv) := by
  unfold vextH
  rw [List.map_take, List.map_append, List.map_drop]

theorem rgbPx4NeonH_inv (v : NeonLanes H B) (h : HPre 3 src offs w b) {t : ℕ} (ht : t ∈ offs) {jx : ℕ}
    (hj : jx + 4 ≤ b.size) (hv : v.rgb4 ≤ 8) {T : ℕ → ℕ → ℕ}
    (T0 : ∀ c, c < 3 → T jx c = jx * 3 + c) (T1 : ∀ c, c < 3 → T (jx + 1) c = jx * 3 + (3 + c))
    (T2 : ∀ c, c < 2 → T (jx + 2) c = jx * 3 + (6 + c)) (T2' : T (jx + 2) 2 = jx * 3 + v.rgb4)
    (T3 : ∀ c, c < 3 → T (jx + 3) c = jx * 3 + (v.rgb4 + (1 + c))) (s : List B)
    (hs : TapInv v 3 3 T src w b t jx s) :
    ∃ s', rgbPx4NeonH v src w b jx t s = some s' ∧ TapInv v 3 3 T src w b t (jx + 4) s' := by
  have hr := h.room ht (k := jx + 4) (by omega)
  obtain ⟨a1, a2⟩ := slice_map_range (src := src) v (o := t + (b.start + jx) * 3) (n := 8) (by omega)
  obtain ⟨b1, b2⟩ := slice_map_range (src := src) v (o := t + (b.start + jx) * 3 + v.rgb4) (n := 4) (by omega)
  unfold rgbPx4NeonH
  rw [(h.mapH v.cv).loadW v.arith (by omega), a1, b1]
  simp only [Option.bind_eq_bind, Option.bind_some, vext_map]
  rw [List.map_take, List.map_drop, a2, b2]
  have e : ∀ i, t + (b.start * 3 + (jx * 3 + i)) = t + (b.start + jx) * 3 + i := fun i => by ring
  refine ⟨_, rfl, (((hs.next ?_ (splat_lanes v.arith 3 (i := 0) (by norm_num))).next ?_
    (splat_lanes v.arith 3 (i := 1) (by norm_num))).next ?_ (splat_lanes v.arith 3 (i := 2) (by norm_num))).next ?_
    (splat_lanes v.arith 3 (i := 3) (by norm_num))⟩
  · simp only [List.range_succ, List.range_zero, List.nil_append, List.cons_append, List.map_cons, List.map_nil, List.take_succ_cons, List.take_zero]
    refine Lanes.list4 le_rfl (fun _ => ?_) (fun _ => ?_) (fun _ => ?_)
    · rw [T0 0 (by norm_num), e]
    · rw [T0 1 (by norm_num), e]
    · rw [T0 2 (by norm_num), e]
  · simp only [vextH, List.range_succ, List.range_zero, List.nil_append, List.cons_append, List.map_cons, List.map_nil, List.take_succ_cons, List.take_zero,
      List.drop_succ_cons, List.drop_zero]
    refine Lanes.list4 le_rfl (fun _ => ?_) (fun _ => ?_) (fun _ => ?_)
    · rw [T1 0 (by norm_num), e]
    · rw [T1 1 (by norm_num), e]
    · rw [T1 2 (by norm_num), e]
  · simp only [vextH, List.range_succ, List.range_zero, List.nil_append, List.cons_append, List.map_cons, List.map_nil, List.take_succ_cons, List.take_zero,
      List.drop_succ_cons, List.drop_zero]
    refine Lanes.list4 le_rfl (fun _ => ?_) (fun _ => ?_) (fun _ => ?_)
    · rw [T2 0 (by norm_num), e]
    · rw [T2 1 (by norm_num), e]
    · rw [T2', e]
      rfl
  · simp only [vextH, List.range_succ, List.range_zero, List.nil_append, List.cons_append, List.map_cons, List.map_nil, List.take_succ_cons, List.take_zero,
      List.drop_succ_cons, List.drop_zero]
    refine Lanes.list4 le_rfl (fun _ => ?_) (fun _ => ?_) (fun _ => ?_)
    · rw [T3 0 (by norm_num), e, Nat.add_assoc _ v.rgb4]
    · rw [T3 1 (by norm_num), e, Nat.add_assoc _ v.rgb4]
    · rw [T3 2 (by norm_num), e, Nat.add_assoc _ v.rgb4]

theorem rgbPx2NeonH_inv (v : NeonLanes H B) (zh : H) (h : HPre 3 src offs w b) {t : ℕ} (ht : t ∈ offs) {jx : ℕ}
    (hj : jx + 2 ≤ b.size) {T : ℕ → ℕ → ℕ}
    (T0 : ∀ c, c < 3 → T jx c = jx * 3 + c) (T1 : ∀ c, c < 3 → T (jx + 1) c = jx * 3 + (3 + c)) (s : List B)
    (hs : TapInv v 3 3 T src w b t jx s) :
    ∃ s', rgbPx2NeonH v zh src w b jx t s = some s' ∧ TapInv v 3 3 T src w b t (jx + 2) s' := by
  have hr := h.room ht (k := jx + 2) (by omega)
  obtain ⟨a1, a2⟩ := slice_map_range (src := src) v (o := t + (b.start + jx) * 3) (n := 4) (by omega)
  obtain ⟨b1, b2⟩ := slice_map_range (src := src) v (o := t + (b.start + jx) * 3 + 4) (n := 2) (by omega)
  unfold rgbPx2NeonH
  rw [(h.mapH v.cv).loadW v.arith (by omega), a1, b1]
  simp only [Option.bind_eq_bind, Option.bind_some, vext_map]
  rw [List.map_append, a2, b2]
  have e : ∀ i, t + (b.start * 3 + (jx * 3 + i)) = t + (b.start + jx) * 3 + i := fun i => by ring
  refine ⟨_, rfl, (hs.next ?_ (splat_lanes v.arith 3 (i := 0) (by norm_num))).next ?_
    (splat_lanes v.arith 3 (i := 1) (by norm_num))⟩
  · simp only [List.range_succ, List.range_zero, List.nil_append, List.cons_append, List.map_cons, List.map_nil]
    refine Lanes.list4 le_rfl (fun _ => ?_) (fun _ => ?_) (fun _ => ?_)
    · rw [T0 0 (by norm_num), e]
    · rw [T0 1 (by norm_num), e]
    · rw [T0 2 (by norm_num), e]
  · simp only [vextH, List.range_succ, List.range_zero, List.nil_append, List.cons_append, List.map_cons, List.map_nil, List.take_succ_cons, List.take_zero,
      List.drop_succ_cons, List.drop_zero]
    refine Lanes.list4 le_rfl (fun _ => ?_) (fun _ => ?_) (fun _ => ?_)
    · rw [T1 0 (by norm_num), e]
    · rw [T1 1 (by norm_num), e]
    · rw [T1 2 (by norm_num), e]

theorem rgbPx1NeonH_inv (v : NeonLanes H B) (zh : H) (h : HPre 3 src offs w b) {t : ℕ} (ht : t ∈ offs) {jx : ℕ}
    (hj : jx < b.size) (hv : v.rgb1 ≤ 2) {T : ℕ → ℕ → ℕ}
    (T0 : ∀ c, c < 2 → T jx c = jx * 3 + c) (T1 : T jx 2 = jx * 3 + v.rgb1) (s : List B)
    (hs : TapInv v 3 3 T src w b t jx s) :
    ∃ s', rgbPx1NeonH v zh src w b jx t s = some s' ∧ TapInv v 3 3 T src w b t (jx + 1) s' := by
  have hr := h.room ht (k := jx + 1) (by omega)
  obtain ⟨a1, a2⟩ := slice_map_range (src := src) v (o := t + (b.start + jx) * 3) (n := 2) (by omega)
  unfold rgbPx1NeonH
  rw [h.getQ hj, a1, List.getElem?_eq_getElem (show t + (b.start + jx) * 3 + v.rgb1 < src.length by omega)]
  simp only [Option.bind_eq_bind, Option.bind_some]
  rw [List.map_append, a2]
  have e : ∀ i, t + (b.start * 3 + (jx * 3 + i)) = t + (b.start + jx) * 3 + i := fun i => by ring
  refine ⟨_, rfl, hs.next ?_ (Lanes.set1 _ _)⟩
  refine Lanes.list4 le_rfl (fun _ => ?_) (fun _ => ?_) (fun _ => ?_)
  · rw [T0 0 (by norm_num), e]
  · rw [T0 1 (by norm_num), e]
  · rw [T1, e, List.getD_eq_getElem?_getD, List.getElem?_map, List.getElem?_eq_getElem (by omega)]
    rfl

theorem rgbNeonH_ok (v : NeonLanes H B) (zh : H) (good : Bool) (g4 : v.rgb4 = if good then 8 else 0)
    (g1 : v.rgb1 = if good then 2 else 0) (h : HPre 3 src offs w b) :
    rgbNeonH v zh src offs w b = some (offs.map fun t => (List.range 3).map fun c =>
      v.nv (winSum v.arith (rgbTap good b.size) w b 3 (fun i => (src.map v.cv).getD (t + i) v.arith.zero) b.size c)) := by
  unfold rgbNeonH
  dsimp only
  obtain ⟨n1, s1, e1, i1, q1, q1', q1''⟩ := rowsLoop_inv (size := b.size)
    (P := fun t j s => TapInv v 3 3 (rgbTap good b.size) src w b t j s)
    (margin := 4) (step := 4)
    (by norm_num) (by norm_num) (fun m hm t ht s hs => rgbPx4NeonH_inv v h ht (by omega) (by rw [g4]; split_ifs <;> norm_num)
      (by intro c hc; unfold rgbTap; split_ifs <;> omega)
      (by intro c hc; unfold rgbTap; split_ifs <;> omega)
      (by intro c hc; unfold rgbTap; split_ifs <;> omega)
      (by rw [g4]; unfold rgbTap; split_ifs <;> omega)
      (by intro c hc; rw [g4]; unfold rgbTap; split_ifs <;> omega) s hs) (Nat.zero_le _)
    (tap_init v 3 3 _)
  obtain ⟨n2, s2, e2, i2, q2, q2', q2''⟩ := rowsLoop_inv (size := b.size)
    (P := fun t j s => TapInv v 3 3 (rgbTap good b.size) src w b t j s)
    (margin := 2) (step := 2)
    (by norm_num) (by norm_num) (fun m hm t ht s hs => rgbPx2NeonH_inv v zh h ht (by omega)
      (by intro c hc; unfold rgbTap; split_ifs <;> omega)
      (by intro c hc; unfold rgbTap; split_ifs <;> omega) s hs) q1 i1
  obtain ⟨n3, s3, e3, i3, q3, q4, _⟩ := rowsLoop_inv (size := b.size)
    (P := fun t j s => TapInv v 3 3 (rgbTap good b.size) src w b t j s)
    (margin := 0) (step := 1)
    (by norm_num) (by norm_num) (fun m hm t ht s hs => rgbPx1NeonH_inv v zh h ht (by omega) (by rw [g1]; split_ifs <;> norm_num)
      (by intro c hc; unfold rgbTap; split_ifs <;> omega)
      (by rw [g1]; unfold rgbTap; split_ifs <;> omega) s hs) q2 i2
  rw [e1]
  simp only [Option.bind_eq_bind, Option.bind_some]
  rw [e2]
  simp only [Option.bind_some]
  rw [e3]
  simp only [Option.bind_some]
  rw [show 0 + n1 * 4 + n2 * 2 + n3 * 1 = b.size by omega] at i3
  congr 1
  refine forall₂_eq i3 fun t _ s hs => ?_
  rw [Lanes.take hs (by norm_num), List.map_map]
  rfl

/-! #### four channels -/

theorem loadH4_tap (v : NeonLanes H B) {t jx q d : ℕ} (hd : d = q * 4) (h : t + (b.start + jx) * 4 + d + 4 ≤ src.length) :
    loadps (src.map v.cv) (t + (b.start + jx) * 4 + d) =
      some ((List.range 4).map fun c => (src.map v.cv).getD (t + (b.start * 4 + ((jx + q) * 4 + c))) v.arith.zero) := by
  subst hd
  rw [loadps_eq v.arith.zero (by rw [List.length_map]; omega)]
  refine congrArg some (List.map_congr_left fun i _ => ?_)
  congr 1
  ring

theorem rgbaPxGood (v : NeonLanes H B) {t n : ℕ} {T : ℕ → ℕ → ℕ} (m : ℕ) (hT : ∀ c, c < 4 → T n c = m * 4 + c) :
    Lanes 4 (fun c => (src.map v.cv).getD (t + (b.start * 4 + T n c)) v.arith.zero)
      ((List.range 4).map fun c => (src.map v.cv).getD (t + (b.start * 4 + (m * 4 + c))) v.arith.zero) :=
  (Lanes.ofMap 4 _).congr fun c hc => by rw [hT c hc]

theorem rgbaPx4H_tap (v : NeonLanes H B) (h : HPre 4 src offs w b) {t : ℕ} (ht : t ∈ offs) {jx : ℕ}
    (hj : jx + 4 ≤ b.size) {T : ℕ → ℕ → ℕ} (hT : ∀ q, q < 4 → ∀ c, c < 4 → T (jx + q) c = (jx + q) * 4 + c) (s : List B)
    (hs : TapInv v 4 4 T src w b t jx s) :
    ∃ s', rgbaPx4H v.arith v.cv true src w b jx t s = some s' ∧ TapInv v 4 4 T src w b t (jx + 4) s' := by
  have hr := h.room ht (k := jx + 4) (by omega)
  rw [rgbaPx4H_eq]
  unfold rgbaPx4F
  have l0 := loadH4_tap (src := src) (b := b) v (t := t) (jx := jx) (q := 0) (d := 0) rfl (by omega)
  rw [Nat.add_zero] at l0
  rw [(h.mapH v.cv).loadW v.arith (by omega), l0, loadH4_tap v (q := 1) (d := 4) rfl (by omega),
    loadH4_tap v (q := 2) (d := 8) rfl (by omega), loadH4_tap v (q := 3) (d := 12) rfl (by omega)]
  simp only [Option.bind_eq_bind, Option.bind_some]
  exact ⟨_, rfl, (((hs.next (rgbaPxGood v (jx + 0) (hT 0 (by norm_num))) (splat_lanes v.arith 4 (i := 0) (by norm_num))).next
    (rgbaPxGood v _ (hT 1 (by norm_num))) (splat_lanes v.arith 4 (i := 1) (by norm_num))).next
    (rgbaPxGood v _ (hT 2 (by norm_num))) (splat_lanes v.arith 4 (i := 2) (by norm_num))).next
    (rgbaPxGood v _ (hT 3 (by norm_num))) (splat_lanes v.arith 4 (i := 3) (by norm_num))⟩

theorem rgbaPx8NeonH_tap (v : NeonLanes H B) (h : HPre 4 src offs w b) {t : ℕ} (ht : t ∈ offs) {jx : ℕ}
    (hj : jx + 8 ≤ b.size) {T : ℕ → ℕ → ℕ} (hT : ∀ q, q < 8 → ∀ c, c < 4 → T (jx + q) c = (jx + q) * 4 + c) (s : List B)
    (hs : TapInv v 4 4 T src w b t jx s) :
    ∃ s', rgbaPx8NeonH v src w b jx t s = some s' ∧ TapInv v 4 4 T src w b t (jx + 8) s' := by
  obtain ⟨u, u1, u2⟩ := rgbaPx4H_tap v h ht (by omega) (fun q hq => hT q (by omega)) s hs
  obtain ⟨r, r1, r2⟩ := rgbaPx4H_tap v h ht (jx := jx + 4) (by omega)
    (fun q hq c hc => by have := hT (4 + q) (by omega) c hc; simpa [Nat.add_assoc] using this) u u2
  exact ⟨r, by unfold rgbaPx8NeonH; rw [u1]; exact r1, r2⟩

theorem rgbaPx4NeonH_tap (v : NeonLanes H B) (h : HPre 4 src offs w b) {t : ℕ} (ht : t ∈ offs) {jx : ℕ}
    (hj : jx + 4 ≤ b.size) {T : ℕ → ℕ → ℕ} (hT : ∀ q, q < 3 → ∀ c, c < 4 → T (jx + q) c = (jx + q) * 4 + c)
    (hT3 : ∀ c, c < 4 → T (jx + 3) c = (jx + 1) * 4 + c) (s : List B)
    (hs : TapInv v 4 4 T src w b t jx s) :
    ∃ s', rgbaPx4NeonH v src w b jx t s = some s' ∧ TapInv v 4 4 T src w b t (jx + 4) s' := by
  have hr := h.room ht (k := jx + 4) (by omega)
  unfold rgbaPx4NeonH
  have l0 := loadH4_tap (src := src) (b := b) v (t := t) (jx := jx) (q := 0) (d := 0) rfl (by omega)
  rw [Nat.add_zero] at l0
  simp only [loadH8_eq, loadps2]
  rw [(h.mapH v.cv).loadW v.arith (by omega), l0, loadH4_tap v (q := 1) (d := 4) rfl (by omega),
    loadH4_tap v (q := 2) (d := 8) rfl (by omega),
    show t + (b.start + jx) * 4 + 8 + 4 = t + (b.start + jx) * 4 + 12 by omega, loadH4_tap v (q := 3) (d := 12) rfl (by omega)]
  simp only [Option.bind_eq_bind, Option.bind_some]
  exact ⟨_, rfl, (((hs.next (rgbaPxGood v (jx + 0) (hT 0 (by norm_num))) (splat_lanes v.arith 4 (i := 0) (by norm_num))).next
    (rgbaPxGood v _ (hT 1 (by norm_num))) (splat_lanes v.arith 4 (i := 1) (by norm_num))).next
    (rgbaPxGood v _ (hT 2 (by norm_num))) (splat_lanes v.arith 4 (i := 2) (by norm_num))).next
    (rgbaPxGood v (jx + 1) hT3) (splat_lanes v.arith 4 (i := 3) (by norm_num))⟩

theorem rgbaPx2H_tap (v : NeonLanes H B) (h : HPre 4 src offs w b) {t : ℕ} (ht : t ∈ offs) {jx : ℕ}
    (hj : jx + 2 ≤ b.size) {T : ℕ → ℕ → ℕ} (hT : ∀ q, q < 2 → ∀ c, c < 4 → T (jx + q) c = (jx + q) * 4 + c) (s : List B)
    (hs : TapInv v 4 4 T src w b t jx s) :
    ∃ s', rgbaPx2H v.arith v.cv true src w b jx t s = some s' ∧ TapInv v 4 4 T src w b t (jx + 2) s' := by
  have hr := h.room ht (k := jx + 2) (by omega)
  rw [rgbaPx2H_eq]
  unfold rgbaPx2F
  have l0 := loadH4_tap (src := src) (b := b) v (t := t) (jx := jx) (q := 0) (d := 0) rfl (by omega)
  rw [Nat.add_zero] at l0
  rw [(h.mapH v.cv).loadW v.arith (by omega), l0, loadH4_tap v (q := 1) (d := 4) rfl (by omega)]
  simp only [Option.bind_eq_bind, Option.bind_some]
  exact ⟨_, rfl, (hs.next (rgbaPxGood v (jx + 0) (hT 0 (by norm_num))) (splat_lanes v.arith 4 (i := 0) (by norm_num))).next
    (rgbaPxGood v _ (hT 1 (by norm_num))) (splat_lanes v.arith 4 (i := 1) (by norm_num))⟩

theorem rgbaPx1H_tap (v : NeonLanes H B) (h : HPre 4 src offs w b) {t : ℕ} (ht : t ∈ offs) {jx : ℕ}
    (hj : jx < b.size) {T : ℕ → ℕ → ℕ} (hT : ∀ c, c < 4 → T jx c = jx * 4 + c) (s : List B)
    (hs : TapInv v 4 4 T src w b t jx s) :
    ∃ s', rgbaPx1H v.arith v.cv true src w b jx t s = some s' ∧ TapInv v 4 4 T src w b t (jx + 1) s' := by
  have hr := h.room ht (k := jx + 1) (by omega)
  rw [rgbaPx1H_eq]
  unfold rgbaPx1F
  have l0 := loadH4_tap (src := src) (b := b) v (t := t) (jx := jx) (q := 0) (d := 0) rfl (by omega)
  rw [Nat.add_zero] at l0
  rw [h.getQ hj, l0]
  simp only [Option.bind_eq_bind, Option.bind_some]
  exact ⟨_, rfl, hs.next (rgbaPxGood v (jx + 0) hT) (Lanes.set1 _ _)⟩

theorem rgbaNeonH_ok (v : NeonLanes H B) (eight : Bool) (h : HPre 4 src offs w b) :
    rgbaNeonH v eight src offs w b = some (offs.map fun t => (List.range 4).map fun c =>
      v.nv (winSum v.arith (rgbaTap eight b.size) w b 4 (fun i => (src.map v.cv).getD (t + i) v.arith.zero) b.size c)) := by
  unfold rgbaNeonH
  dsimp only
  have key : ∃ n0 s0, (if eight then rowsLoop 8 8 b.size offs (rgbaPx8NeonH v src w b) 0 (offs.map fun _ => set1v v.arith.zero)
      else some (0, offs.map fun _ => set1v v.arith.zero)) = some (n0, s0) ∧ n0 ≤ b.size ∧
      n0 = (if eight then 8 * ((b.size - 1) / 8) else 0) ∧
      List.Forall₂ (fun t s => TapInv v 4 4 (rgbaTap eight b.size) src w b t n0 s) offs s0 := by
    cases eight
    · exact ⟨0, _, rfl, Nat.zero_le _, rfl, tap_init v 4 4 _⟩
    · obtain ⟨n1, s1, e1, i1, q1, q2, q3⟩ := rowsLoop_inv (size := b.size)
        (P := fun t j s => TapInv v 4 4 (rgbaTap true b.size) src w b t j s) (margin := 8) (step := 8)
        (by norm_num) (by norm_num) (fun m hm t ht s hs => rgbaPx8NeonH_tap v h ht (by omega)
          (by intro q hq c hc; unfold rgbaTap; rw [if_neg]; intro hh; have := hh.1 rfl; omega) s hs) (Nat.zero_le _)
        (tap_init v 4 4 _)
      have := h.size
      exact ⟨_, s1, by rw [if_pos rfl, e1], q1, by rw [if_pos rfl]; omega, i1⟩
  obtain ⟨n0, s0, e0, q0, q0', i0⟩ := key
  have hsz := h.size
  obtain ⟨n1, s1, e1, i1, q1, q1', q1''⟩ := rowsLoop_inv (size := b.size)
    (P := fun t j s => TapInv v 4 4 (rgbaTap eight b.size) src w b t j s) (margin := 4) (step := 4)
    (by norm_num) (by norm_num) (fun m hm t ht s hs => rgbaPx4NeonH_tap v h ht (by omega)
      (by intro q hq c hc; unfold rgbaTap; rw [if_neg]; cases eight <;> simp at q0' ⊢ <;> omega)
      (by
        intro c hc
        unfold rgbaTap
        rw [if_pos]
        · congr 1
        · cases eight <;> simp at q0' ⊢ <;> omega) s hs) q0 i0
  obtain ⟨n2, s2, e2, i2, q2, _, _⟩ := rowsLoop_inv (size := b.size)
    (P := fun t j s => TapInv v 4 4 (rgbaTap eight b.size) src w b t j s) (margin := 2) (step := 2)
    (by norm_num) (by norm_num) (fun m hm t ht s hs => rgbaPx2H_tap v h ht (by omega)
      (by intro q hq c hc; unfold rgbaTap; rw [if_neg]; cases eight <;> simp at q0' ⊢ <;> omega) s hs) q1 i1
  obtain ⟨n3, s3, e3, i3, q3, q4, _⟩ := rowsLoop_inv (size := b.size)
    (P := fun t j s => TapInv v 4 4 (rgbaTap eight b.size) src w b t j s) (margin := 0) (step := 1)
    (by norm_num) (by norm_num) (fun m hm t ht s hs => rgbaPx1H_tap v h ht (by omega)
      (by intro c hc; unfold rgbaTap; rw [if_neg]; cases eight <;> simp at q0' ⊢ <;> omega) s hs) q2 i2
  rw [e0]
  simp only [Option.bind_eq_bind, Option.bind_some]
  rw [e1]
  simp only [Option.bind_some]
  rw [e2]
  simp only [Option.bind_some]
  rw [e3]
  simp only [Option.bind_some]
  rw [show n0 + n1 * 4 + n2 * 2 + n3 * 1 = b.size by omega] at i3
  congr 1
  refine forall₂_eq i3 fun t _ s hs => ?_
  rw [Lanes.eq4 hs, List.map_map]
  rfl

end handlers

end PicScale
