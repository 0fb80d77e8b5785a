import Verif.Lemmas.X86F32H

/-! The one-channel f32 row handlers on x86. -/

namespace PicScale

open Spec

variable {A : Type} {src : List A} {offs : List ℕ} {w : List ℚ} {b : Bounds}

/-- One row of a plane: the four lanes. -/
def PlaneLanes (o : VecOps A) (fma : Bool) (src : List A) (w : List ℚ) (b : Bounds) (a : ℕ) (L : ℕ → List Tap)
    (s : List A) : Prop :=
  TapLanes o fma w (fun _ => pxF 1 b (rowF o src a) 0) L s

theorem planePxR_inv (o : VecOps A) (fma : Bool) (h : HPre 1 src offs w b) {a : ℕ} (ha : a ∈ offs) {jx R : ℕ}
    (hj : jx + 4 * R ≤ b.size) {L : ℕ → List Tap} (s : List A) (hs : PlaneLanes o fma src w b a L s) :
    ∃ s', planePxR o fma R src w b jx a s = some s' ∧
      PlaneLanes o fma src w b a (fun i => L i ++ (List.range R).map fun t => use (jx + 4 * t + i)) s' := by
  unfold planePxR
  refine forRange_pred (P := fun R s => PlaneLanes o fma src w b a
    (fun i => L i ++ (List.range R).map fun t => use (jx + 4 * t + i)) s) ?_ (by simpa using hs)
  intro t ht s h1
  have hr := h.room ha (k := jx + 4 * t + 4) (by omega)
  rw [h.loadW o (by omega), loadps_eq o.zero (by omega)]
  simp only [Option.bind_eq_bind, Option.bind_some]
  refine ⟨_, rfl, ?_⟩
  have := h1.next (fun i => use (jx + 4 * t + i))
    (x := (List.range 4).map fun i => src.getD (a + (b.start + jx) + 4 * t + i) o.zero)
    (y := (List.range 4).map fun k => wF o w (jx + 4 * t + k))
    ((Lanes.ofMap _ _).congr fun i _ => by
      simp only [use, Option.elim, pxF, rowF]
      congr 1
      omega) (Lanes.ofMap _ _)
  refine this.congr fun i _ => ?_
  rw [List.append_assoc, snoc_range fun t => use (jx + 4 * t + i)]

theorem planePx2_inv (o : VecOps A) (fma : Bool) (h : HPre 1 src offs w b) {a : ℕ} (ha : a ∈ offs) {jx : ℕ}
    (hj : jx + 2 ≤ b.size) {L : ℕ → List Tap} (s : List A) (hs : PlaneLanes o fma src w b a L s) :
    ∃ s', planePx2 o fma src w b jx a s = some s' ∧
      PlaneLanes o fma src w b a (fun i => L i ++ [if i < 2 then use (jx + i) else (none, none)]) s' := by
  have hr := h.room ha (k := jx + 2) (by omega)
  unfold planePx2
  rw [h.loadW o (by omega), slice?_eq_some (by omega) (by omega), Nat.add_sub_cancel_left,
    slice_eq_map_range o.zero (by omega)]
  simp only [Option.bind_eq_bind, Option.bind_some]
  refine ⟨_, rfl, hs.next _ ?_ ?_⟩
  · refine ⟨fun i => if i < 2 then src.getD (a + (b.start + jx) + i) o.zero else o.zero, by simp [List.range_succ], ?_⟩
    intro i _
    dsimp only
    split_ifs
    · simp only [use, Option.elim, pxF, rowF]
      congr 1
      omega
    · rfl
  · refine ⟨fun i => if i < 2 then wF o w (jx + i) else o.zero, by simp [List.range_succ], ?_⟩
    intro i _
    dsimp only
    split_ifs <;> rfl

theorem planePx1_inv (o : VecOps A) (fma : Bool) (h : HPre 1 src offs w b) {a : ℕ} (ha : a ∈ offs) {jx : ℕ}
    (hj : jx < b.size) {L : ℕ → List Tap} (s : List A) (hs : PlaneLanes o fma src w b a L s) :
    ∃ s', planePx1 o fma src w b jx a s = some s' ∧
      PlaneLanes o fma src w b a (fun i => L i ++ [if i = 0 then use jx else (none, some jx)]) s' := by
  have hr := h.room ha (k := jx + 1) (by omega)
  unfold planePx1
  rw [h.getQ hj, getElem?_eq_some_getD o.zero (l := src) (by omega)]
  simp only [Option.bind_eq_bind, Option.bind_some]
  refine ⟨_, rfl, hs.next _ ?_ ?_⟩
  · refine ⟨fun i => if i = 0 then src.getD (a + (b.start + jx)) o.zero else o.zero, by simp [List.range_succ], ?_⟩
    intro i _
    dsimp only
    split_ifs
    · simp only [use, Option.elim, pxF, rowF]
      congr 1
      omega
    · rfl
  · refine (Lanes.set1 _ _).congr fun i _ => ?_
    split_ifs <;> rfl

/-- Value of the one-channel handlers. -/
def planeH (o : VecOps A) (fma single : Bool) (w : List ℚ) (b : Bounds) (f : ℕ → A) : A :=
  quadSum o.add (o.mulAdd fma) o.zero single (pxF 1 b f 0) (wF o w) b.size

theorem hsumV_eq (o : VecOps A) (g : ℕ → A) :
    hsumV o ((List.range 4).map g) = o.add (o.add (g 0) (g 1)) (o.add (g 2) (g 3)) := by
  simp [hsumV, List.range_succ]

/-- Blocks done when the first loop is at `j`. -/
def firstBlocks (single : Bool) (j : ℕ) : List ℕ :=
  if single then (List.range (j / 8)).flatMap fun m => [2 * m, 2 * m + 1, 2 * m + 2, 2 * m + 3] else List.range (j / 4)

theorem firstBlocks_step (single : Bool) {j : ℕ} (hj : j % (if single then 8 else 16) = 0) (i : ℕ) :
    (firstBlocks single j).map (fun q => use (4 * q + i)) ++ (List.range 4).map (fun t => use (j + 4 * t + i)) =
      (firstBlocks single (j + if single then 8 else 16)).map fun q => use (4 * q + i) := by
  unfold firstBlocks
  cases single
  · simp only [Bool.false_eq_true, if_false] at hj ⊢
    rw [show (j + 16) / 4 = j / 4 + 4 by omega, List.range_add, List.map_append, List.map_map]
    have e2 : ∀ t, 4 * (j / 4 + t) = j + 4 * t := fun t => by omega
    simp only [Function.comp_def, e2]
  · simp only [if_true] at hj ⊢
    rw [show (j + 8) / 8 = j / 8 + 1 by omega, List.range_succ (n := j / 8), List.flatMap_append, List.map_append]
    congr 1
    have h0 : 4 * (2 * (j / 8)) = j := by omega
    have h1 : 4 * (2 * (j / 8) + 1) = j + 4 := by omega
    have h2 : 4 * (2 * (j / 8) + 2) = j + 8 := by omega
    have h3 : 4 * (2 * (j / 8) + 3) = j + 12 := by omega
    simp [List.range_succ, h0, h1, h2, h3]

theorem planeSseF_ok (o : VecOps A) (fma single : Bool) (h : HPre 1 src offs w b) :
    planeSseF o fma (if single then 8 else 16) src offs w b = some (offs.map fun a => (List.range 1).map fun _ =>
      planeH o fma single w b (fun i => src.getD (a + i) o.zero)) := by
  have hsz := h.size
  unfold planeSseF
  dsimp only
  have hst : (if single then 8 else 16 : ℕ) = 8 ∧ single = true ∨ (if single then 8 else 16 : ℕ) = 16 ∧ single = false := by
    cases single <;> simp
  have key := fun (j : ℕ) (hj : j % (if single then 8 else 16) = 0) (i : ℕ) => firstBlocks_step single hj i
  generalize hS : (if single then 8 else 16 : ℕ) = S at *
  -- first loop
  let P : ℕ → ℕ → List A → Prop := fun a j s => j % S = 0 ∧
    PlaneLanes o fma src w b a (fun i => (firstBlocks single j).map fun q => use (4 * q + i)) s
  obtain ⟨n1, s1, e1, i1, q1, q1', r1⟩ := rowsLoop_inv (P := P) (size := b.size) (margin := 16) (step := S)
    (f := planePxR o fma 4 src w b) (by omega) (by omega) (fun m hm a ha s hs => by
      obtain ⟨hdiv, hs⟩ := hs
      obtain ⟨s', e, i⟩ := planePxR_inv o fma h ha (R := 4) (jx := 0 + m * S) (by omega) s hs
      refine ⟨s', e, by rw [Nat.add_mod_right]; exact hdiv, i.congr fun i _ => key _ hdiv i⟩) (Nat.zero_le _)
    (forall₂_init offs (set1v o.zero) fun a _ => ⟨by simp, by
      refine (TapLanes.zero _ _ _ _).congr fun i _ => ?_
      unfold firstBlocks
      cases single <;> rfl⟩)
  rw [e1]
  simp only [Option.bind_eq_bind, Option.bind_some]
  rw [Nat.zero_add] at e1 i1 q1 q1' r1 ⊢
  generalize hJ : n1 * S = J at *
  have hJ4 : J % 4 = 0 := by
    rcases hst with ⟨rfl, _⟩ | ⟨rfl, _⟩ <;> omega
  -- eight and four
  let Q : ℕ → ℕ → List A → Prop := fun a j s => j % 4 = 0 ∧ J ≤ j ∧
    PlaneLanes o fma src w b a (fun i => (firstBlocks single J ++ List.range' (J / 4) ((j - J) / 4)).map fun q => use (4 * q + i)) s
  have stepQ : ∀ R jx, jx + 4 * R ≤ b.size → ∀ a ∈ offs, ∀ s, Q a jx s →
      ∃ s', planePxR o fma R src w b jx a s = some s' ∧ Q a (jx + 4 * R) s' := by
    rintro R jx hj a ha s ⟨hev, hle, hs⟩
    obtain ⟨s', e, i⟩ := planePxR_inv o fma h ha hj s hs
    refine ⟨s', e, by omega, by omega, i.congr fun i _ => ?_⟩
    have e1 : (jx + 4 * R - J) / 4 = (jx - J) / 4 + R := by omega
    rw [e1, ← List.range'_append_1 (s := J / 4), ← List.append_assoc, List.map_append (l₂ := List.range' _ R)]
    congr 1
    have e2 : J / 4 + (jx - J) / 4 = jx / 4 := by omega
    rw [e2, List.range'_eq_map_range, List.map_map]
    have e3 : ∀ t, 4 * (jx / 4 + t) = jx + 4 * t := fun t => by omega
    simp only [Function.comp_def, e3]
  have i1' : List.Forall₂ (fun a s => Q a J s) offs s1 := by
    refine i1.imp ?_
    rintro a s ⟨_, hs⟩
    refine ⟨hJ4, le_rfl, ?_⟩
    simpa using hs
  obtain ⟨n2, s2, e2, i2, q2, q2', r2⟩ := rowsLoop_inv (P := Q) (size := b.size) (margin := 8) (step := 8)
    (f := planePxR o fma 2 src w b) (by norm_num) (by norm_num)
    (fun m hm a ha s hs => stepQ 2 _ (by omega) a ha s hs) q1 i1'
  obtain ⟨n3, s3, e3, i3, q3, q3', r3⟩ := rowsLoop_inv (P := Q) (size := b.size) (margin := 4) (step := 4)
    (f := planePxR o fma 1 src w b) (by norm_num) (by norm_num)
    (fun m hm a ha s hs => stepQ 1 _ (by omega) a ha s hs) q2 i2
  rw [e2]
  simp only [Option.bind_some]
  rw [e3]
  simp only [Option.bind_some]
  have hlt : J + n2 * 8 + n3 * 4 < b.size := by
    rcases Nat.eq_zero_or_pos n3 with h3 | h3
    · rcases Nat.eq_zero_or_pos n2 with h2 | h2
      · rcases Nat.eq_zero_or_pos n1 with h1 | h1
        · subst h1 h2 h3; rw [Nat.zero_mul] at hJ; omega
        · have := r1 h1; omega
      · have := r2 h2; omega
    · have := r3 h3; omega
  have hq : J + n2 * 8 + n3 * 4 = 4 * ((b.size - 1) / 4) := by omega
  rw [hq] at i3 ⊢
  generalize hB : 4 * ((b.size - 1) / 4) = B at *
  have hblocks : firstBlocks single J ++ List.range' (J / 4) ((B - J) / 4) = planeBlocks single b.size := by
    unfold firstBlocks planeBlocks
    rcases hst with ⟨hS', rfl⟩ | ⟨hS', rfl⟩
    · simp only [if_true]
      rw [hS'] at hJ r1
      have hn1 : n1 = (b.size - 9) / 8 := by
        rcases Nat.eq_zero_or_pos n1 with h1 | h1
        · omega
        · have := r1 h1; omega
      have e1 : J / 8 = (b.size - 9) / 8 := by omega
      have e2 : J / 4 = 2 * ((b.size - 9) / 8) := by omega
      have e3 : (B - J) / 4 = (b.size - 1) / 4 - 2 * ((b.size - 9) / 8) := by omega
      rw [e1, e2, e3]
    · simp only [Bool.false_eq_true, if_false]
      have e1 : (b.size - 1) / 4 = J / 4 + (B - J) / 4 := by omega
      rw [e1, List.range_eq_range', List.range_eq_range']
      have := List.range'_append_1 (s := 0) (m := J / 4) (n := (B - J) / 4)
      rwa [Nat.zero_add] at this
  -- two
  let L0 : ℕ → List Tap := fun i => (planeBlocks single b.size).map fun q => use (4 * q + i)
  let T : ℕ → ℕ → List A → Prop := fun a j s => B ≤ j ∧
    PlaneLanes o fma src w b a (fun i => L0 i ++
      (List.range ((j - B) / 2)).map fun t => if i < 2 then use (B + 2 * t + i) else (none, none)) s
  have i3' : List.Forall₂ (fun a s => T a B s) offs s3 := by
    refine i3.imp ?_
    rintro a s ⟨_, _, hs⟩
    refine ⟨le_rfl, ?_⟩
    rw [hblocks] at hs
    simpa using hs
  obtain ⟨n4, s4, e4, i4, q4, q4', r4⟩ := rowsLoop_inv (P := T) (size := b.size) (margin := 2) (step := 2)
    (f := planePx2 o fma src w b) (by norm_num) (by norm_num) (fun m hm a ha s hs => by
      obtain ⟨hle, hs⟩ := hs
      obtain ⟨s', e, i⟩ := planePx2_inv o fma h ha (jx := B + m * 2) (by omega) s hs
      refine ⟨s', e, by omega, i.congr fun i _ => ?_⟩
      have e1 : (B + m * 2 + 2 - B) / 2 = m + 1 := by omega
      have e2 : (B + m * 2 - B) / 2 = m := by omega
      rw [e1, e2, List.append_assoc, ← snoc_range, Nat.mul_comm m 2]) (by omega) i3'
  rw [e4]
  simp only [Option.bind_some]
  -- one
  let C := B + n4 * 2
  have hn4 : n4 = if B + 2 < b.size then 1 else 0 := by split_ifs <;> omega
  have hC : C = if B + 2 < b.size then B + 2 else B := by
    show B + n4 * 2 = _
    rw [hn4]; split_ifs <;> omega
  let U : ℕ → ℕ → List A → Prop := fun a j s => C ≤ j ∧
    PlaneLanes o fma src w b a (fun i => (L0 i ++
      (List.range n4).map fun t => if i < 2 then use (B + 2 * t + i) else (none, none)) ++
      (List.range' C (j - C)).map fun k => if i = 0 then use k else (none, some k)) s
  have i4' : List.Forall₂ (fun a s => U a (B + n4 * 2) s) offs s4 := by
    refine i4.imp ?_
    rintro a s ⟨_, hs⟩
    refine ⟨le_rfl, ?_⟩
    rw [show (B + n4 * 2 - B) / 2 = n4 by omega] at hs
    simpa [C] using hs
  obtain ⟨n5, s5, e5, i5, q5, q5', _⟩ := rowsLoop_inv (P := U) (size := b.size) (margin := 0) (step := 1)
    (f := planePx1 o fma src w b) (by norm_num) (by norm_num) (fun m hm a ha s hs => by
      obtain ⟨hle, hs⟩ := hs
      obtain ⟨s', e, i⟩ := planePx1_inv o fma h ha (jx := B + n4 * 2 + m * 1) (by omega) s hs
      refine ⟨s', e, by omega, i.congr fun i _ => ?_⟩
      have e1 : B + n4 * 2 + m * 1 + 1 - C = m + 1 := by show _ - (B + n4 * 2) = _; omega
      have e2 : B + n4 * 2 + m * 1 - C = m := by show _ - (B + n4 * 2) = _; omega
      rw [e1, e2, List.append_assoc _ _ [_], ← snoc_range', Nat.mul_one]) (by omega) i4'
  rw [e5]
  simp only [Option.bind_some]
  rw [show B + n4 * 2 + n5 * 1 = b.size by omega] at i5
  congr 1
  refine forall₂_eq i5 fun a _ s hs => ?_
  have hL : ∀ i, (L0 i ++ (List.range n4).map fun t => if i < 2 then use (B + 2 * t + i) else (none, none)) ++
      (List.range' C (b.size - C)).map (fun k => if i = 0 then use k else (none, some k)) = planeTaps single b.size i := by
    intro i
    unfold planeTaps planeTail
    dsimp only
    rw [hB, List.append_assoc, ← hC, hn4]
    congr 2
    split_ifs <;> simp
  rw [Lanes.eq4 (TapLanes.congr hs.2 fun i _ => hL i), hsumV_eq]
  rfl

theorem planeTaps_in {single : Bool} {n : ℕ} (hn : 1 ≤ n) {i : ℕ} (hi : i < 4) : TapsIn n (planeTaps single n i) := by
  intro t ht
  unfold planeTaps at ht
  rw [List.mem_append] at ht
  rcases ht with ht | ht
  · rw [List.mem_map] at ht
    obtain ⟨q, hq, rfl⟩ := ht
    have hlt : 4 * q + i < n := by
      unfold planeBlocks at hq
      cases single
      · simp only [Bool.false_eq_true, if_false, List.mem_range] at hq
        omega
      · simp only [if_true, List.mem_append, List.mem_flatMap, List.mem_range, List.mem_cons, List.not_mem_nil, or_false,
          List.mem_range'_1] at hq
        rcases hq with ⟨m, hm, hq⟩ | hq
        · omega
        · omega
    constructor <;> intro k hk <;> simp only [use, Option.some.injEq] at hk <;> omega
  · unfold planeTail at ht
    dsimp only at ht
    rw [List.mem_append] at ht
    rcases ht with ht | ht
    · split_ifs at ht with h1 h2
      · rw [List.mem_singleton] at ht
        subst ht
        constructor <;> intro k hk <;> simp only [use, Option.some.injEq] at hk <;> omega
      · rw [List.mem_singleton] at ht
        subst ht
        constructor <;> intro k hk <;> simp at hk
      · simp at ht
    · rw [List.mem_map] at ht
      obtain ⟨q, hq, rfl⟩ := ht
      rw [List.mem_range'_1] at hq
      have hq' : q < n := by split_ifs at hq <;> omega
      split_ifs with h1
      · constructor <;> intro k hk <;> simp only [use, Option.some.injEq] at hk <;> omega
      · constructor <;> intro k hk <;> simp only [Option.some.injEq, reduceCtorEq] at hk
        omega

theorem quadSum_congr {add : A → A → A} {mla : A → A → A → A} {z : A} {single : Bool} {p p' w w' : ℕ → A} {n : ℕ} (hn : 1 ≤ n)
    (hp : ∀ k, k < n → p k = p' k) (hw : ∀ k, k < n → w k = w' k) :
    quadSum add mla z single p w n = quadSum add mla z single p' w' n := by
  unfold quadSum
  dsimp only
  rw [tapSum_congr (planeTaps_in hn (i := 0) (by norm_num)) hp hw, tapSum_congr (planeTaps_in hn (i := 1) (by norm_num)) hp hw,
    tapSum_congr (planeTaps_in hn (i := 2) (by norm_num)) hp hw, tapSum_congr (planeTaps_in hn (i := 3) (by norm_num)) hp hw]

theorem planeH_local (o : VecOps A) (fma single : Bool) (w : List ℚ) (b : Bounds) (f g : ℕ → A) (hb : 1 ≤ b.size)
    (h : ∀ i, i < (b.start + b.size) * 1 → f i = g i) : planeH o fma single w b f = planeH o fma single w b g :=
  quadSum_congr hb (fun k hk => pxF_local (by norm_num) h hk) (fun _ _ => rfl)

end PicScale
