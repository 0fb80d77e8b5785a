import Verif.Lemmas.X86F32

/-! The f32 row handlers on x86. -/

namespace PicScale

open Spec

variable {A : Type}

/-- The row that starts at `a`. -/
def rowF (o : VecOps A) (src : List A) (a i : ℕ) : A := src.getD (a + i) o.zero
/-- Channel `c` of pixel `k` of the window. -/
def pxF (N : ℕ) (b : Bounds) (f : ℕ → A) (c k : ℕ) : A := f ((b.start + k) * N + c)
/-- Weight `k`. -/
def wF (o : VecOps A) (w : List ℚ) (k : ℕ) : A := o.weight (w.getD k 0)

/-- The first `M` lanes of a register. -/
def Lanes (M : ℕ) (F : ℕ → A) (s : List A) : Prop := ∃ g : ℕ → A, s = (List.range 4).map g ∧ ∀ i, i < M → g i = F i

theorem Lanes.step {o : VecOps A} {fma : Bool} {M : ℕ} {F P Q : ℕ → A} {s p q : List A} (hs : Lanes M F s)
    (hp : Lanes M P p) (hq : Lanes M Q q) :
    Lanes M (fun i => o.mulAdd fma (F i) (P i) (Q i)) (preferV o fma s p q) := by
  obtain ⟨g, rfl, hg⟩ := hs
  obtain ⟨h, rfl, hh⟩ := hp
  obtain ⟨k, rfl, hk⟩ := hq
  refine ⟨_, preferV_map o fma g h k, fun i hi => ?_⟩
  rw [hg i hi, hh i hi, hk i hi]

theorem Lanes.congr {M : ℕ} {F G : ℕ → A} {s : List A} (h : Lanes M F s) (e : ∀ i, i < M → F i = G i) : Lanes M G s := by
  obtain ⟨g, h1, h2⟩ := h
  exact ⟨g, h1, fun i hi => (h2 i hi).trans (e i hi)⟩

theorem Lanes.set1 (M : ℕ) (v : A) : Lanes M (fun _ => v) (set1v v) := ⟨fun _ => v, set1v_eq v, fun _ _ => rfl⟩

theorem Lanes.ofMap (M : ℕ) (g : ℕ → A) : Lanes M g ((List.range 4).map g) := ⟨g, rfl, fun _ _ => rfl⟩

theorem Lanes.take {M : ℕ} {F : ℕ → A} {s : List A} (h : Lanes M F s) (hM : M ≤ 4) :
    s.take M = (List.range M).map F := by
  obtain ⟨g, rfl, hg⟩ := h
  rw [← List.map_take, List.take_range, Nat.min_eq_left hM]
  exact List.map_congr_left fun i hi => hg i (by simpa using hi)

theorem Lanes.eq4 {F : ℕ → A} {s : List A} (h : Lanes 4 F s) : s = (List.range 4).map F := by
  obtain ⟨g, rfl, hg⟩ := h
  exact List.map_congr_left fun i hi => hg i (by simpa using hi)

section handlers

variable {src : List A} {offs : List ℕ} {w : List ℚ} {b : Bounds}

theorem HPre.getQ {N : ℕ} (h : HPre N src offs w b) {k : ℕ} (hk : k < b.size) : w[k]? = some (w.getD k 0) :=
  getElem?_eq_some_getD 0 (by have := h.weights; omega)

theorem HPre.loadW (o : VecOps A) {N : ℕ} (h : HPre N src offs w b) {j n : ℕ} (hj : j + n ≤ b.size) :
    loadW o w j n = some ((List.range n).map fun k => wF o w (j + k)) :=
  loadW_eq o (by have := h.weights; omega)

/-! ### sequential handlers: three and four channels -/

/-- The accumulators of one row after `n` pixels. -/
def SeqInv (o : VecOps A) (fma : Bool) (M N : ℕ) (src : List A) (w : List ℚ) (b : Bounds) (a n : ℕ) (s : List A) : Prop :=
  Lanes M (fun c => chain (o.mulAdd fma) o.zero (pxF N b (rowF o src a) c) (wF o w) n) s

theorem SeqInv.next {o : VecOps A} {fma : Bool} {M N a n : ℕ} {s p q : List A} (hs : SeqInv o fma M N src w b a n s)
    (hp : Lanes M (fun c => pxF N b (rowF o src a) c n) p) (hq : Lanes M (fun _ => wF o w n) q) :
    SeqInv o fma M N src w b a (n + 1) (preferV o fma s p q) := Lanes.step hs hp hq

theorem loadps_px (o : VecOps A) {N a jx d q : ℕ} (hd : d = q * N) (h : a + (b.start + jx) * N + d + 4 ≤ src.length) :
    loadps src (a + (b.start + jx) * N + d) = some ((List.range 4).map fun i => pxF N b (rowF o src a) i (jx + q)) := by
  subst hd
  rw [loadps_eq o.zero (by omega)]
  congr 1
  apply List.map_congr_left
  intro i _
  unfold pxF rowF
  congr 1
  ring

theorem loadps_px0 (o : VecOps A) {N a jx : ℕ} (h : a + (b.start + jx) * N + 4 ≤ src.length) :
    loadps src (a + (b.start + jx) * N) = some ((List.range 4).map fun i => pxF N b (rowF o src a) i jx) :=
  loadps_px o (d := 0) (q := 0) (by omega) h

theorem loadRgb_px (o : VecOps A) {a jx d q : ℕ} (hd : d = q * 3) (h : a + (b.start + jx) * 3 + d + 3 ≤ src.length) :
    ∃ p, loadRgb o src (a + (b.start + jx) * 3 + d) = some p ∧
      Lanes 3 (fun c => pxF 3 b (rowF o src a) c (jx + q)) p := by
  subst hd
  refine ⟨(List.range 4).map fun i => if i < 3 then pxF 3 b (rowF o src a) i (jx + q) else o.zero, ?_, ?_⟩
  · unfold loadRgb
    rw [slice?_eq_some (by omega) h, Nat.add_sub_cancel_left, slice_eq_map_range o.zero h, Option.map_some]
    congr 1
    have e : ∀ i, src.getD (a + (b.start + jx) * 3 + q * 3 + i) o.zero = pxF 3 b (rowF o src a) i (jx + q) := by
      intro i
      unfold pxF rowF
      congr 1
      ring
    simp only [e]
    simp [List.range_succ]
  · refine ⟨_, rfl, fun i hi => if_pos hi⟩

theorem splat_lanes (o : VecOps A) (M : ℕ) {w : List ℚ} {n i j : ℕ} (h : i < n) :
    Lanes M (fun _ => wF o w (j + i)) (splat o i ((List.range n).map fun k => wF o w (j + k))) := by
  rw [splat_map o _ h]
  exact Lanes.ofMap _ _

theorem rgbPx4_inv (o : VecOps A) (fma : Bool) (h : HPre 3 src offs w b) {a : ℕ} (ha : a ∈ offs) {jx : ℕ}
    (hj : jx + 4 ≤ b.size) (s : List A) (hs : SeqInv o fma 3 3 src w b a jx s) :
    ∃ s', rgbPx4 o fma src w b jx a s = some s' ∧ SeqInv o fma 3 3 src w b a (jx + 4) s' := by
  have hr := h.room ha (k := jx + 4) (by omega)
  obtain ⟨p3, e3, l3⟩ := loadRgb_px (src := src) (b := b) o (a := a) (jx := jx) (d := 9) (q := 3) rfl (by omega)
  unfold rgbPx4
  rw [h.loadW o (by omega), loadps_px0 o (by omega), loadps_px o (d := 3) (q := 1) rfl (by omega),
    loadps_px o (d := 6) (q := 2) rfl (by omega), e3]
  simp only [Option.bind_eq_bind, Option.bind_some]
  exact ⟨_, rfl, (((hs.next (Lanes.ofMap _ _) (splat_lanes o 3 (i := 0) (by norm_num))).next (Lanes.ofMap _ _)
    (splat_lanes o 3 (i := 1) (by norm_num))).next (Lanes.ofMap _ _) (splat_lanes o 3 (i := 2) (by norm_num))).next l3
    (splat_lanes o 3 (i := 3) (by norm_num))⟩

theorem rgbPx2_inv (o : VecOps A) (fma : Bool) (h : HPre 3 src offs w b) {a : ℕ} (ha : a ∈ offs) {jx : ℕ}
    (hj : jx + 2 ≤ b.size) (s : List A) (hs : SeqInv o fma 3 3 src w b a jx s) :
    ∃ s', rgbPx2 o fma src w b jx a s = some s' ∧ SeqInv o fma 3 3 src w b a (jx + 2) s' := by
  have hr := h.room ha (k := jx + 2) (by omega)
  obtain ⟨p3, e3, l3⟩ := loadRgb_px (src := src) (b := b) o (a := a) (jx := jx) (d := 3) (q := 1) rfl (by omega)
  unfold rgbPx2
  rw [h.loadW o (by omega), loadps_px0 o (by omega), e3]
  simp only [Option.bind_eq_bind, Option.bind_some]
  exact ⟨_, rfl, (hs.next (Lanes.ofMap _ _) (splat_lanes o 3 (i := 0) (by norm_num))).next l3
    (splat_lanes o 3 (i := 1) (by norm_num))⟩

theorem rgbPx1_inv (o : VecOps A) (fma : Bool) (h : HPre 3 src offs w b) {a : ℕ} (ha : a ∈ offs) {jx : ℕ}
    (hj : jx < b.size) (s : List A) (hs : SeqInv o fma 3 3 src w b a jx s) :
    ∃ s', rgbPx1 o fma src w b jx a s = some s' ∧ SeqInv o fma 3 3 src w b a (jx + 1) s' := by
  have hr := h.room ha (k := jx + 1) (by omega)
  obtain ⟨p3, e3, l3⟩ := loadRgb_px (src := src) (b := b) o (a := a) (jx := jx) (d := 0) (q := 0) rfl (by omega)
  rw [Nat.add_zero] at e3
  unfold rgbPx1
  rw [h.getQ hj, e3]
  simp only [Option.bind_eq_bind, Option.bind_some]
  exact ⟨_, rfl, hs.next l3 (Lanes.set1 _ _)⟩

theorem rgbaPx4F_inv (o : VecOps A) (fma : Bool) (h : HPre 4 src offs w b) {a : ℕ} (ha : a ∈ offs) {jx : ℕ}
    (hj : jx + 4 ≤ b.size) (s : List A) (hs : SeqInv o fma 4 4 src w b a jx s) :
    ∃ s', rgbaPx4F o fma src w b jx a s = some s' ∧ SeqInv o fma 4 4 src w b a (jx + 4) s' := by
  have hr := h.room ha (k := jx + 4) (by omega)
  unfold rgbaPx4F
  rw [h.loadW o (by omega), loadps_px0 o (by omega), loadps_px o (d := 4) (q := 1) rfl (by omega),
    loadps_px o (d := 8) (q := 2) rfl (by omega), loadps_px o (d := 12) (q := 3) rfl (by omega)]
  simp only [Option.bind_eq_bind, Option.bind_some]
  exact ⟨_, rfl, (((hs.next (Lanes.ofMap _ _) (splat_lanes o 4 (i := 0) (by norm_num))).next (Lanes.ofMap _ _)
    (splat_lanes o 4 (i := 1) (by norm_num))).next (Lanes.ofMap _ _) (splat_lanes o 4 (i := 2) (by norm_num))).next (Lanes.ofMap _ _)
    (splat_lanes o 4 (i := 3) (by norm_num))⟩

theorem rgbaPx2F_inv (o : VecOps A) (fma : Bool) (h : HPre 4 src offs w b) {a : ℕ} (ha : a ∈ offs) {jx : ℕ}
    (hj : jx + 2 ≤ b.size) (s : List A) (hs : SeqInv o fma 4 4 src w b a jx s) :
    ∃ s', rgbaPx2F o fma src w b jx a s = some s' ∧ SeqInv o fma 4 4 src w b a (jx + 2) s' := by
  have hr := h.room ha (k := jx + 2) (by omega)
  unfold rgbaPx2F
  rw [h.loadW o (by omega), loadps_px0 o (by omega), loadps_px o (d := 4) (q := 1) rfl (by omega)]
  simp only [Option.bind_eq_bind, Option.bind_some]
  exact ⟨_, rfl, (hs.next (Lanes.ofMap _ _) (splat_lanes o 4 (i := 0) (by norm_num))).next (Lanes.ofMap _ _)
    (splat_lanes o 4 (i := 1) (by norm_num))⟩

theorem rgbaPx1F_inv (o : VecOps A) (fma : Bool) (h : HPre 4 src offs w b) {a : ℕ} (ha : a ∈ offs) {jx : ℕ}
    (hj : jx < b.size) (s : List A) (hs : SeqInv o fma 4 4 src w b a jx s) :
    ∃ s', rgbaPx1F o fma src w b jx a s = some s' ∧ SeqInv o fma 4 4 src w b a (jx + 1) s' := by
  have hr := h.room ha (k := jx + 1) (by omega)
  unfold rgbaPx1F
  rw [h.getQ hj, loadps_px0 o (by omega)]
  simp only [Option.bind_eq_bind, Option.bind_some]
  exact ⟨_, rfl, hs.next (Lanes.ofMap _ _) (Lanes.set1 _ _)⟩

/-- Value of the sequential handlers. -/
def seqH (o : VecOps A) (fma : Bool) (N : ℕ) (w : List ℚ) (b : Bounds) (f : ℕ → A) (c : ℕ) : A :=
  chain (o.mulAdd fma) o.zero (pxF N b f c) (wF o w) b.size

theorem seq_init (o : VecOps A) (fma : Bool) (M N : ℕ) :
    List.Forall₂ (fun a s => SeqInv o fma M N src w b a 0 s) offs (offs.map fun _ => set1v o.zero) :=
  forall₂_init _ _ fun _ _ => Lanes.set1 M _

theorem rgbSseF_ok (o : VecOps A) (fma : Bool) (h : HPre 3 src offs w b) :
    rgbSseF o fma src offs w b = some (offs.map fun a => (List.range 3).map fun c =>
      seqH o fma 3 w b (fun i => src.getD (a + i) o.zero) c) := by
  unfold rgbSseF
  dsimp only
  obtain ⟨n1, s1, e1, i1, q1, _, _⟩ := rowsLoop_inv (size := b.size) (P := fun a j s => SeqInv o fma 3 3 src w b a j s) (margin := 4) (step := 4)
    (by norm_num) (by norm_num) (fun m hm a ha s hs => rgbPx4_inv o fma h ha (by omega) s hs) (Nat.zero_le _)
    (seq_init o fma 3 3)
  obtain ⟨n2, s2, e2, i2, q2, _, _⟩ := rowsLoop_inv (size := b.size) (P := fun a j s => SeqInv o fma 3 3 src w b a j s) (margin := 2) (step := 2)
    (by norm_num) (by norm_num) (fun m hm a ha s hs => rgbPx2_inv o fma h ha (by omega) s hs) q1 i1
  obtain ⟨n3, s3, e3, i3, q3, q4, _⟩ := rowsLoop_inv (size := b.size) (P := fun a j s => SeqInv o fma 3 3 src w b a j s) (margin := 0) (step := 1)
    (by norm_num) (by norm_num) (fun m hm a ha s hs => rgbPx1_inv o fma h ha (by omega) s hs) q2 i2
  rw [e1]
  simp only [Option.bind_eq_bind, Option.bind_some]
  rw [e2]
  simp only [Option.bind_some]
  rw [e3]
  simp only [Option.bind_some]
  rw [show 0 + n1 * 4 + n2 * 2 + n3 * 1 = b.size by omega] at i3
  congr 1
  exact forall₂_eq i3 fun a _ s hs => Lanes.take hs (by norm_num)

theorem rgbaSseF_ok (o : VecOps A) (fma : Bool) (h : HPre 4 src offs w b) :
    rgbaSseF o fma src offs w b = some (offs.map fun a => (List.range 4).map fun c =>
      seqH o fma 4 w b (fun i => src.getD (a + i) o.zero) c) := by
  unfold rgbaSseF
  dsimp only
  obtain ⟨n1, s1, e1, i1, q1, _, _⟩ := rowsLoop_inv (size := b.size) (P := fun a j s => SeqInv o fma 4 4 src w b a j s) (margin := 4) (step := 4)
    (by norm_num) (by norm_num) (fun m hm a ha s hs => rgbaPx4F_inv o fma h ha (by omega) s hs) (Nat.zero_le _)
    (seq_init o fma 4 4)
  obtain ⟨n2, s2, e2, i2, q2, _, _⟩ := rowsLoop_inv (size := b.size) (P := fun a j s => SeqInv o fma 4 4 src w b a j s) (margin := 2) (step := 2)
    (by norm_num) (by norm_num) (fun m hm a ha s hs => rgbaPx2F_inv o fma h ha (by omega) s hs) q1 i1
  obtain ⟨n3, s3, e3, i3, q3, q4, _⟩ := rowsLoop_inv (size := b.size) (P := fun a j s => SeqInv o fma 4 4 src w b a j s) (margin := 0) (step := 1)
    (by norm_num) (by norm_num) (fun m hm a ha s hs => rgbaPx1F_inv o fma h ha (by omega) s hs) q2 i2
  rw [e1]
  simp only [Option.bind_eq_bind, Option.bind_some]
  rw [e2]
  simp only [Option.bind_some]
  rw [e3]
  simp only [Option.bind_some]
  rw [show 0 + n1 * 4 + n2 * 2 + n3 * 1 = b.size by omega] at i3
  congr 1
  have := forall₂_eq (g := fun s => s) i3 fun a _ s hs => Lanes.eq4 hs
  rw [List.map_id'] at this
  exact this

theorem seqH_local (o : VecOps A) (fma : Bool) (N : ℕ) (w : List ℚ) (b : Bounds) (f g : ℕ → A) (c : ℕ) (hc : c < N)
    (h : ∀ i, i < (b.start + b.size) * N → f i = g i) : seqH o fma N w b f c = seqH o fma N w b g c := by
  unfold seqH
  apply chain_congr _ (fun _ _ => rfl)
  intro k hk
  apply h
  have h2 : (b.start + k + 1) * N ≤ (b.start + b.size) * N := Nat.mul_le_mul_right _ (by omega)
  rw [Nat.add_mul _ 1] at h2
  omega

/-! ### lanes of taps -/

/-- A tap of a lane, given samples and weights. -/
theorem tapSum_append (mla : A → A → A → A) (z : A) (p w : ℕ → A) (L M : List Tap) :
    tapSum mla z p w (L ++ M) = M.foldl (fun acc t => mla acc (t.1.elim z p) (t.2.elim z w)) (tapSum mla z p w L) := by
  unfold tapSum
  rw [List.foldl_append]

/-- Every tap of the list is inside the window. -/
def TapsIn (n : ℕ) (L : List Tap) : Prop :=
  ∀ t ∈ L, (∀ k, t.1 = some k → k < n) ∧ ∀ k, t.2 = some k → k < n

theorem tapSum_congr {mla : A → A → A → A} {z : A} {p p' w w' : ℕ → A} {n : ℕ} {L : List Tap} (hL : TapsIn n L)
    (hp : ∀ k, k < n → p k = p' k) (hw : ∀ k, k < n → w k = w' k) :
    tapSum mla z p w L = tapSum mla z p' w' L := by
  induction L using List.reverseRecOn with
  | nil => rfl
  | append_singleton L t ih =>
    rw [tapSum_snoc, tapSum_snoc, ih fun u hu => hL u (List.mem_append_left _ hu)]
    have ht := hL t (by simp)
    have e1 : t.1.elim z p = t.1.elim z p' := by
      cases e : t.1 with
      | none => rfl
      | some k => exact hp k (ht.1 k e)
    have e2 : t.2.elim z w = t.2.elim z w' := by
      cases e : t.2 with
      | none => rfl
      | some k => exact hw k (ht.2 k e)
    rw [e1, e2]

/-- A loop that keeps a predicate. -/
theorem forRange_pred {σ : Type} {P : ℕ → σ → Prop} {f : ℕ → σ → Option σ} {n : ℕ}
    (hf : ∀ k, k < n → ∀ s, P k s → ∃ s', f k s = some s' ∧ P (k + 1) s') {s : σ} (h0 : P 0 s) :
    ∃ s', forRange 0 n f s = some s' ∧ P n s' := by
  induction n with
  | zero => exact ⟨s, rfl, h0⟩
  | succ n ih =>
    obtain ⟨s1, e1, p1⟩ := ih fun k hk => hf k (by omega)
    obtain ⟨s2, e2, p2⟩ := hf n (by omega) s1 p1
    refine ⟨s2, ?_, p2⟩
    unfold forRange at e1 ⊢
    rw [Nat.sub_zero] at e1 ⊢
    rw [List.range'_1_concat, List.foldlM_append, e1]
    simp only [Option.bind_eq_bind, Option.bind_some, List.foldlM_cons, List.foldlM_nil, Nat.zero_add]
    rw [e2]
    rfl

/-- The lanes of a register as sums of taps. -/
def TapLanes (o : VecOps A) (fma : Bool) (w : List ℚ) (p : ℕ → ℕ → A) (L : ℕ → List Tap) (s : List A) : Prop :=
  Lanes 4 (fun i => tapSum (o.mulAdd fma) o.zero (p i) (wF o w) (L i)) s

theorem TapLanes.next {o : VecOps A} {fma : Bool} {w : List ℚ} {p : ℕ → ℕ → A} {L : ℕ → List Tap} {s x y : List A}
    (hs : TapLanes o fma w p L s) (t : ℕ → Tap) (hx : Lanes 4 (fun i => (t i).1.elim o.zero (p i)) x)
    (hy : Lanes 4 (fun i => (t i).2.elim o.zero (wF o w)) y) :
    TapLanes o fma w p (fun i => L i ++ [t i]) (preferV o fma s x y) :=
  (Lanes.step hs hx hy).congr fun _ _ => (tapSum_snoc _ _ _ _ _ _).symm

theorem TapLanes.congr {o : VecOps A} {fma : Bool} {w : List ℚ} {p : ℕ → ℕ → A} {L M : ℕ → List Tap} {s : List A}
    (hs : TapLanes o fma w p L s) (e : ∀ i, i < 4 → L i = M i) : TapLanes o fma w p M s :=
  Lanes.congr hs fun i hi => by rw [e i hi]

theorem TapLanes.zero (o : VecOps A) (fma : Bool) (w : List ℚ) (p : ℕ → ℕ → A) :
    TapLanes o fma w p (fun _ => []) (set1v o.zero) := Lanes.set1 _ _

theorem snoc_range {β : Type} (f : ℕ → β) (n : ℕ) : (List.range n).map f ++ [f n] = (List.range (n + 1)).map f := by
  rw [List.range_succ, List.map_append]; rfl

theorem snoc_range' {β : Type} (f : ℕ → β) (s n : ℕ) :
    (List.range' s n).map f ++ [f (s + n)] = (List.range' s (n + 1)).map f := by
  rw [List.range'_1_concat, List.map_append]; rfl

/-! ### four channels, AVX2 -/

/-- Both halves of one row. -/
def AvxInv (o : VecOps A) (fma : Bool) (src : List A) (w : List ℚ) (b : Bounds) (a : ℕ) (L H : List Tap)
    (s : List A × List A) : Prop :=
  TapLanes o fma w (pxF 4 b (rowF o src a)) (fun _ => L) s.1 ∧ TapLanes o fma w (pxF 4 b (rowF o src a)) (fun _ => H) s.2

theorem rgbaAvxPxR_inv (o : VecOps A) (fma : Bool) (h : HPre 4 src offs w b) {a : ℕ} (ha : a ∈ offs) {jx R : ℕ}
    (hj : jx + 2 * R ≤ b.size) {L H : List Tap} (s : List A × List A) (hs : AvxInv o fma src w b a L H s) :
    ∃ s', rgbaAvxPxR o fma R src w b jx a s = some s' ∧
      AvxInv o fma src w b a (L ++ (List.range R).map fun t => use (jx + 2 * t))
        (H ++ (List.range R).map fun t => use (jx + 2 * t + 1)) s' := by
  unfold rgbaAvxPxR
  refine forRange_pred (P := fun R s => AvxInv o fma src w b a (L ++ (List.range R).map fun t => use (jx + 2 * t))
        (H ++ (List.range R).map fun t => use (jx + 2 * t + 1)) s) ?_ (by simpa using hs)
  rintro t ht s ⟨h1, h2⟩
  have hr := h.room ha (k := jx + 2 * t + 2) (by omega)
  unfold loadps2
  rw [h.loadW o (by omega), loadps_px o (d := 8 * t) (q := 2 * t) (by ring) (by omega), Nat.add_assoc _ (8 * t) 4,
    loadps_px o (d := 8 * t + 4) (q := 2 * t + 1) (by ring) (by omega)]
  simp only [Option.bind_eq_bind, Option.bind_some]
  refine ⟨_, rfl, ?_⟩
  constructor
  · have := h1.next (fun _ => use (jx + 2 * t)) (x := (List.range 4).map fun i => pxF 4 b (rowF o src a) i (jx + 2 * t))
      (y := splat o 0 ((List.range 2).map fun k => wF o w (jx + 2 * t + k)))
      (Lanes.ofMap _ _) (splat_lanes o 4 (i := 0) (by norm_num))
    refine this.congr fun i _ => ?_
    rw [List.append_assoc, snoc_range fun t => use (jx + 2 * t)]
  · have := h2.next (fun _ => use (jx + 2 * t + 1)) (x := (List.range 4).map fun i => pxF 4 b (rowF o src a) i (jx + (2 * t + 1)))
      (y := splat o 1 ((List.range 2).map fun k => wF o w (jx + 2 * t + k)))
      (Lanes.ofMap _ _) (splat_lanes o 4 (i := 1) (by norm_num))
    refine this.congr fun i _ => ?_
    rw [List.append_assoc, snoc_range fun t => use (jx + 2 * t + 1)]

theorem rgbaAvxPx1F_inv (o : VecOps A) (fma : Bool) (h : HPre 4 src offs w b) {a : ℕ} (ha : a ∈ offs) {jx : ℕ}
    (hj : jx < b.size) {L H : List Tap} (s : List A × List A) (hs : AvxInv o fma src w b a L H s) :
    ∃ s', rgbaAvxPx1F o fma src w b jx a s = some s' ∧
      AvxInv o fma src w b a (L ++ [use jx]) (H ++ [(none, some jx)]) s' := by
  have hr := h.room ha (k := jx + 1) (by omega)
  unfold rgbaAvxPx1F
  rw [h.getQ hj, loadps_px0 o (by omega)]
  simp only [Option.bind_eq_bind, Option.bind_some]
  exact ⟨_, rfl, hs.1.next (fun _ => use jx) (Lanes.ofMap _ _) (Lanes.set1 _ _),
    hs.2.next (fun _ => (none, some jx)) (Lanes.set1 _ _) (Lanes.set1 _ _)⟩

/-- Value of the AVX2 handlers for four channels. -/
def avxH (o : VecOps A) (fma : Bool) (w : List ℚ) (b : Bounds) (f : ℕ → A) (c : ℕ) : A :=
  pairSum o.add (o.mulAdd fma) o.zero (pxF 4 b f c) (wF o w) b.size

theorem rgbaAvxF_ok (o : VecOps A) (fma : Bool) (h : HPre 4 src offs w b) :
    rgbaAvxF o fma src offs w b = some (offs.map fun a => (List.range 4).map fun c =>
      avxH o fma w b (fun i => src.getD (a + i) o.zero) c) := by
  have hsz := h.size
  unfold rgbaAvxF
  dsimp only
  let P : ℕ → ℕ → List A × List A → Prop := fun a j s => j % 2 = 0 ∧
    AvxInv o fma src w b a ((List.range (j / 2)).map fun i => use (2 * i)) ((List.range (j / 2)).map fun i => use (2 * i + 1)) s
  have step : ∀ R jx, jx + 2 * R ≤ b.size → ∀ a ∈ offs, ∀ s, P a jx s →
      ∃ s', rgbaAvxPxR o fma R src w b jx a s = some s' ∧ P a (jx + 2 * R) s' := by
    rintro R jx hj a ha s ⟨hev, hs⟩
    obtain ⟨s', e, i⟩ := rgbaAvxPxR_inv o fma h ha hj s hs
    refine ⟨s', e, by omega, ?_⟩
    have e1 : (jx + 2 * R) / 2 = jx / 2 + R := by omega
    rw [e1, List.range_add, List.map_append, List.map_append, List.map_map, List.map_map]
    have e2 : ∀ t, 2 * (jx / 2 + t) = jx + 2 * t := fun t => by omega
    simpa only [Function.comp_def, e2] using i
  obtain ⟨n1, s1, e1, i1, q1, _, r1⟩ := rowsLoop_inv (P := P) (size := b.size) (margin := 8) (step := 8)
    (by norm_num) (by norm_num) (fun m hm a ha s hs => step 4 _ (by omega) a ha s hs) (Nat.zero_le _)
    (forall₂_init offs (set1v o.zero, set1v o.zero) fun a _ => ⟨rfl, TapLanes.zero _ _ _ _, TapLanes.zero _ _ _ _⟩)
  obtain ⟨n2, s2, e2, i2, q2, _, r2⟩ := rowsLoop_inv (P := P) (size := b.size) (margin := 4) (step := 4)
    (by norm_num) (by norm_num) (fun m hm a ha s hs => step 2 _ (by omega) a ha s hs) q1 i1
  obtain ⟨n3, s3, e3, i3, q3, q3', r3⟩ := rowsLoop_inv (P := P) (size := b.size) (margin := 2) (step := 2)
    (by norm_num) (by norm_num) (fun m hm a ha s hs => step 1 _ (by omega) a ha s hs) q2 i2
  rw [e1]
  simp only [Option.bind_eq_bind, Option.bind_some]
  rw [e2]
  simp only [Option.bind_some]
  rw [e3]
  simp only [Option.bind_some]
  have hJ : 0 + n1 * 8 + n2 * 4 + n3 * 2 = 2 * ((b.size - 1) / 2) := by omega
  rw [hJ] at i3 ⊢
  generalize hq : (b.size - 1) / 2 = q at *
  let Q : ℕ → ℕ → List A × List A → Prop := fun a j s => 2 * q ≤ j ∧
    AvxInv o fma src w b a ((List.range q).map (fun i => use (2 * i)) ++ (List.range' (2 * q) (j - 2 * q)).map use)
      ((List.range q).map (fun i => use (2 * i + 1)) ++ (List.range' (2 * q) (j - 2 * q)).map fun k => (none, some k)) s
  have i3' : List.Forall₂ (fun a s => Q a (2 * q) s) offs s3 := by
    refine i3.imp ?_
    rintro a s ⟨_, hs⟩
    refine ⟨le_rfl, ?_⟩
    rw [Nat.mul_div_cancel_left _ (by norm_num : 0 < 2)] at hs
    simpa using hs
  obtain ⟨n4, s4, e4, i4, q4, q5, _⟩ := rowsLoop_inv (P := Q) (size := b.size) (margin := 0) (step := 1)
    (f := rgbaAvxPx1F o fma src w b) (by norm_num) (by norm_num) (fun m hm a ha s hs => by
      obtain ⟨hle, hs⟩ := hs
      obtain ⟨s', e, i⟩ := rgbaAvxPx1F_inv o fma h ha (by omega) s hs
      refine ⟨s', e, by omega, ?_⟩
      rw [List.append_assoc, List.append_assoc] at i
      have e1 : 2 * q + m * 1 + 1 - 2 * q = m + 1 := by omega
      have e2 : 2 * q + m * 1 - 2 * q = m := by omega
      rw [e2] at i
      rw [e1, ← snoc_range', ← snoc_range']
      rw [Nat.mul_one] at i
      exact i) (by omega) i3'
  rw [e4]
  simp only [Option.bind_some]
  rw [show 2 * q + n4 * 1 = b.size by omega] at i4
  congr 1
  refine forall₂_eq i4 fun a _ s hs => ?_
  rw [Lanes.eq4 hs.2.1, Lanes.eq4 hs.2.2, zipWith_map_range]
  unfold avxH pairSum lowTaps highTaps lastTaps
  rw [hq]
  rfl

theorem lowTaps_in {n : ℕ} (hn : 1 ≤ n) : TapsIn n (lowTaps n) := by
  intro t ht
  unfold lowTaps lastTaps use at ht
  simp only [List.mem_append, List.mem_map, List.mem_range, List.mem_range'_1] at ht
  constructor <;> intro k hk <;> rcases ht with ⟨i, hi, rfl⟩ | ⟨i, hi, rfl⟩ <;> simp only [Option.some.injEq] at hk <;> omega

theorem highTaps_in {n : ℕ} (hn : 1 ≤ n) : TapsIn n (highTaps n) := by
  intro t ht
  unfold highTaps lastTaps use at ht
  simp only [List.mem_append, List.mem_map, List.mem_range, List.mem_range'_1] at ht
  constructor <;> intro k hk <;> rcases ht with ⟨i, hi, rfl⟩ | ⟨i, hi, rfl⟩ <;>
    simp only [Option.some.injEq, reduceCtorEq] at hk <;> omega

theorem pairSum_congr {add : A → A → A} {mla : A → A → A → A} {z : A} {p p' w w' : ℕ → A} {n : ℕ} (hn : 1 ≤ n)
    (hp : ∀ k, k < n → p k = p' k) (hw : ∀ k, k < n → w k = w' k) :
    pairSum add mla z p w n = pairSum add mla z p' w' n := by
  unfold pairSum
  rw [tapSum_congr (lowTaps_in hn) hp hw, tapSum_congr (highTaps_in hn) hp hw]

theorem pxF_local {N : ℕ} {b : Bounds} {f g : ℕ → A} {c : ℕ} (hc : c < N)
    (h : ∀ i, i < (b.start + b.size) * N → f i = g i) {k : ℕ} (hk : k < b.size) : pxF N b f c k = pxF N b g c k := by
  apply h
  have h2 : (b.start + k + 1) * N ≤ (b.start + b.size) * N := Nat.mul_le_mul_right _ (by omega)
  rw [Nat.add_mul _ 1] at h2
  omega

theorem avxH_local (o : VecOps A) (fma : Bool) (w : List ℚ) (b : Bounds) (f g : ℕ → A) (c : ℕ) (hb : 1 ≤ b.size) (hc : c < 4)
    (h : ∀ i, i < (b.start + b.size) * 4 → f i = g i) : avxH o fma w b f c = avxH o fma w b g c := by
  unfold avxH
  exact pairSum_congr hb (fun k hk => pxF_local hc h hk) (fun _ _ => rfl)

end handlers

end PicScale
