import Verif.Lemmas.SimdVertical

namespace PicScale

open Finset

/-! ### The low precision handlers -/

/-- One sample times one weight in the low precision handlers. -/
def lpTerm (p : ℕ) (w : ℤ) : ℤ := mulhrs1 (((257 * p / 4 : ℕ)) : ℤ) w

/-- Accumulator of output position `x + c` after `n` rows. -/
def lpAcc (src : List ℕ) (stride : ℕ) (w : List ℤ) (b : Bounds) (x n c : ℕ) : ℤ :=
  i16 (32 + ∑ k ∈ range n,
    lpTerm (src.getD (stride * (b.start + k) + x + c) 0 % 256) (i16 (w.getD k 0)))

theorem lpAcc_succ (src : List ℕ) (stride : ℕ) (w : List ℤ) (b : Bounds) (x n c : ℕ) :
    i16 (lpAcc src stride w b x n c +
      lpTerm (src.getD (stride * (b.start + n) + x + c) 0 % 256) (i16 (w.getD n 0))) =
    lpAcc src stride w b x (n + 1) c := by
  unfold lpAcc
  rw [i16_i16_add, sum_range_succ]
  congr 1
  ring

/-- The sample written at position `p`. -/
def lpAt (src : List ℕ) (stride : ℕ) (w : List ℤ) (b : Bounds) (p : ℕ) : ℕ :=
  Spec.clamp 255 (lpAcc src stride w b 0 b.size p >>> 6)

theorem lpAcc_at (src : List ℕ) (stride : ℕ) (w : List ℤ) (b : Bounds) (x n c : ℕ) :
    lpAcc src stride w b x n c = lpAcc src stride w b 0 n (x + c) := by
  unfold lpAcc
  simp only [Nat.add_assoc, Nat.zero_add]

theorem i16_lpAcc (src : List ℕ) (stride : ℕ) (w : List ℤ) (b : Bounds) (x n c : ℕ) :
    i16 (lpAcc src stride w b x n c) = lpAcc src stride w b x n c := by
  unfold lpAcc; exact i16_i16 _

/-- A byte doubled into a 16-bit lane and shifted by two. -/
theorem srli_double {p : ℕ} (h : p < 256) :
    i16 ((i16 ((p : ℤ) + 256 * (p : ℤ)) % 65536) >>> 2) = ((257 * p / 4 : ℕ) : ℤ) := by
  have e : i16 ((p : ℤ) + 256 * (p : ℤ)) % 65536 = 257 * (p : ℤ) := by
    unfold i16
    rw [Int.bmod_def]
    push_cast
    split <;> omega
  rw [e, Int.shiftRight_eq_div_pow, i16_eq_self] <;> norm_num <;> omega

theorem mulhrs_range (v w : ℤ) : i16 (mulhrs1 v w) = mulhrs1 v w := by
  unfold mulhrs1; exact i16_i16 _

/-- Two registers of eight 16-bit lanes. -/
def pairOf (f : ℕ → ℤ) : Reg × Reg :=
  (ofLanes16 [f 0, f 1, f 2, f 3, f 4, f 5, f 6, f 7],
    ofLanes16 [f 8, f 9, f 10, f 11, f 12, f 13, f 14, f 15])

/-- Eight samples times one weight. -/
theorem lp_lane (f0 f1 f2 f3 f4 f5 f6 f7 : ℤ) {p0 p1 p2 p3 p4 p5 p6 p7 : ℕ} (h0 : p0 < 256)
    (h1 : p1 < 256) (h2 : p2 < 256) (h3 : p3 < 256) (h4 : p4 < 256) (h5 : p5 < 256)
    (h6 : p6 < 256) (h7 : p7 < 256) (w : ℤ) (r : Reg)
    (hr : r = [p0, p0, p1, p1, p2, p2, p3, p3, p4, p4, p5, p5, p6, p6, p7, p7]) :
    add16 (ofLanes16 [f0, f1, f2, f3, f4, f5, f6, f7]) (mulhrs16 (srli16 2 r) (set1epi16 w)) =
      ofLanes16 [i16 (f0 + lpTerm p0 (i16 w)), i16 (f1 + lpTerm p1 (i16 w)),
        i16 (f2 + lpTerm p2 (i16 w)), i16 (f3 + lpTerm p3 (i16 w)), i16 (f4 + lpTerm p4 (i16 w)),
        i16 (f5 + lpTerm p5 (i16 w)), i16 (f6 + lpTerm p6 (i16 w)), i16 (f7 + lpTerm p7 (i16 w))] := by
  subst hr
  unfold add16 mulhrs16 srli16
  rw [lanes_set16]
  simp only [lanes16_ofLanes16, lanes16_cons, lanes16_nil, List.map_cons, List.map_nil,
    List.zipWith_cons_cons, List.zipWith_nil_left, i16_i16_add, mulhrs_range,
    srli_double, *]
  rfl

theorem mdot_of (f : ℕ → ℤ) {p : ℕ → ℕ} (hp : ∀ c, p c < 256) (w : ℤ) :
    mdot (pairOf f) (bytesOf p) (set1epi16 w) =
      pairOf fun c => i16 (f c + lpTerm (p c) (i16 w)) := by
  unfold mdot pairOf
  simp only [Prod.mk.injEq]
  exact ⟨lp_lane _ _ _ _ _ _ _ _ (hp 0) (hp 1) (hp 2) (hp 3) (hp 4) (hp 5) (hp 6) (hp 7) _ _ rfl,
    lp_lane _ _ _ _ _ _ _ _ (hp 8) (hp 9) (hp 10) (hp 11) (hp 12) (hp 13) (hp 14) (hp 15) _ _ rfl⟩

theorem lp_shift (v : ℤ) : i16 (i16 v >>> 6) = i16 v >>> 6 := by
  have := i16_range v
  rw [i16_eq_self] <;> rw [Int.shiftRight_eq_div_pow] <;> norm_num <;> omega

theorem lp_pack (f : ℕ → ℤ) : packus16 (srai16 6 (pairOf f).1) (srai16 6 (pairOf f).2) =
    (List.range 16).map fun c => Spec.clamp 255 (i16 (f c) >>> 6) := by
  unfold packus16 srai16 pairOf
  simp only [lanes16_ofLanes16, List.map_cons, List.map_nil, List.cons_append,
    List.nil_append, lp_shift]
  have : ∀ v : ℤ, (max 0 (min v 255)).toNat = Spec.clamp 255 v := fun v => by
    unfold Spec.clamp
    congr 1
  simp only [this]
  rfl

/-- The state of a block of `R` groups after `n` rows. -/
def lpState (R : ℕ) (src : List ℕ) (stride : ℕ) (w : List ℤ) (b : Bounds) (x n : ℕ) :
    List (Reg × Reg) :=
  (List.range R).map fun r => pairOf (lpAcc src stride w b (x + 16 * r) n)

theorem lpState_init (R : ℕ) (src : List ℕ) (stride : ℕ) (w : List ℤ) (b : Bounds) (x : ℕ) :
    List.replicate R (set1epi16 LP_ROUNDING, set1epi16 LP_ROUNDING) =
      lpState R src stride w b x 0 := by
  unfold lpState
  symm
  refine List.eq_replicate_iff.mpr ⟨by simp, ?_⟩
  intro y hy
  obtain ⟨r, _, rfl⟩ := List.mem_map.mp hy
  rfl

theorem mapM_some {α β : Type} {f : α → Option β} {g : α → β} {l : List α}
    (h : ∀ a ∈ l, f a = some (g a)) : l.mapM f = some (l.map g) := by
  induction l with
  | nil => rfl
  | cons a l ih =>
    rw [List.mapM_cons, h a (by simp), ih (fun a ha => h a (by simp [ha]))]
    rfl

theorem lpStep_inv {R : ℕ} {src : List ℕ} {stride : ℕ} {w : List ℤ} {b : Bounds} {total x j : ℕ}
    (h : VPre src stride w b total) (hx : x + 16 * R ≤ total) (hj : j < b.size) :
    lpStep R b src stride w x j (lpState R src stride w b x j) =
      some (lpState R src stride w b x (j + 1)) := by
  have r0 := h.row (k := j) hj
  unfold lpStep
  rw [h.get hj]
  simp only [Option.bind_eq_bind, Option.bind_some]
  have hz : (List.range R).zip (lpState R src stride w b x j) =
      (List.range R).map fun r => (r, pairOf (lpAcc src stride w b (x + 16 * r) j)) := by
    unfold lpState
    rw [List.zip_map_right, List.zip_eq_zipWith]
    simp
  rw [hz, mapM_some (g := fun rs => pairOf (lpAcc src stride w b (x + 16 * rs.1) (j + 1)))]
  · rw [List.map_map]; rfl
  · intro rs hrs
    obtain ⟨r, hr, rfl⟩ := List.mem_map.mp hrs
    have hr := List.mem_range.mp hr
    dsimp only
    rw [load128_eq (by omega)]
    simp only [Option.bind_some]
    rw [mdot_of _ (fun c => Nat.mod_lt _ (by norm_num))]
    congr 2
    funext c
    rw [Nat.add_assoc (stride * (b.start + j)) x, lpAcc_succ]

theorem lpStore_ok {R : ℕ} {src : List ℕ} {stride : ℕ} {w : List ℤ} {b : Bounds} {total x : ℕ}
    (dst : List ℕ) (hl : dst.length = total) (hx : x + 16 * R ≤ total) :
    ∃ r, lpStore x (lpState R src stride w b x b.size) dst = some r ∧ r.length = total ∧
      (∀ p, x ≤ p → p < x + 16 * R → r[p]? = some (lpAt src stride w b p)) ∧
      (∀ p, (p < x ∨ x + 16 * R ≤ p) → r[p]? = dst[p]?) := by
  unfold lpStore lpState
  induction R with
  | zero => exact ⟨dst, rfl, hl, fun p h1 h2 => by omega, fun _ _ => rfl⟩
  | succ R ih =>
    obtain ⟨r1, a1, a2, a3, a4⟩ := ih (by omega)
    obtain ⟨r2, b1, b2, b3, b4⟩ := write_block (B := 16) (x := x + 16 * R) (total := total)
      (val := lpAt src stride w b) r1 a2 (by omega)
    refine ⟨r2, ?_, b2, ?_, ?_⟩
    · rw [List.range_succ (n := R), List.map_append, List.zipIdx_append, List.foldlM_append, a1]
      simp only [Option.bind_eq_bind, Option.bind_some, List.map_cons, List.map_nil,
        List.length_map, List.length_range, List.zipIdx_cons, List.zipIdx_nil, List.foldlM_cons,
        List.foldlM_nil, Nat.zero_add]
      rw [lp_pack]
      simp only [i16_lpAcc]
      rw [show (fun c => Spec.clamp 255 (lpAcc src stride w b (x + 16 * R) b.size c >>> 6)) =
        fun c => lpAt src stride w b (x + 16 * R + c) by
          funext c; unfold lpAt; rw [lpAcc_at], b1]
      rfl
    · intro p hp1 hp2
      by_cases hp : p < x + 16 * R
      · rw [b4 p (by omega), a3 p hp1 hp]
      · exact b3 p (by omega) (by omega)
    · intro p hp
      rw [b4 p (by omega), a4 p (by omega)]

theorem lpBlock_ok (R : ℕ) {src : List ℕ} {stride : ℕ} {w : List ℤ} {b : Bounds} {total : ℕ}
    (h : VPre src stride w b total) :
    BlockOK total (16 * R) (lpBlock R b src stride w) (lpAt src stride w b) := by
  intro x dst hl hx
  have e5 := forRange_spec (a := 0) (b := b.size) (body := lpStep R b src stride w x)
    (inv := lpState R src stride w b x) (by omega) (fun j _ hj => lpStep_inv h (by omega) hj)
  obtain ⟨r, a⟩ := lpStore_ok (R := R) (src := src) (stride := stride) (w := w) (b := b) dst hl
    (by omega)
  refine ⟨r, ?_, a.2⟩
  unfold lpBlock
  rw [lpState_init R src stride w b x, e5]
  simp only [Option.bind_eq_bind, Option.bind_some]
  exact a.1

theorem lpBlockUnrolled_ok (R : ℕ) {src : List ℕ} {stride : ℕ} {w : List ℤ} {b : Bounds}
    {total : ℕ} (h : VPre src stride w b total) :
    BlockOK total (16 * R) (lpBlockUnrolled R b src stride w) (lpAt src stride w b) := by
  intro x dst hl hx
  have e5 := unrolled_eq (size := b.size) (step := lpStep R b src stride w x)
    (step' := lpStep R b src stride w x)
    (inv := lpState R src stride w b x) (fun j hj => lpStep_inv h (by omega) hj)
    (fun j hj => lpStep_inv h (by omega) hj)
  obtain ⟨r, a⟩ := lpStore_ok (R := R) (src := src) (stride := stride) (w := w) (b := b) dst hl
    (by omega)
  refine ⟨r, ?_, a.2⟩
  unfold lpBlockUnrolled
  dsimp only
  rw [lpState_init R src stride w b x, e5]
  simp only [Option.bind_eq_bind, Option.bind_some]
  exact a.1

/-- One register of eight 16-bit lanes. -/
def eightOf (f : ℕ → ℤ) : Reg := ofLanes16 [f 0, f 1, f 2, f 3, f 4, f 5, f 6, f 7]

theorem lp_pack8 (f : ℕ → ℤ) :
    packus16 (srai16 6 (eightOf f)) (srai16 6 (eightOf f)) =
    (List.range 8).map (fun c => Spec.clamp 255 (i16 (f c) >>> 6)) ++
      (List.range 8).map (fun c => Spec.clamp 255 (i16 (f c) >>> 6)) := by
  unfold packus16 srai16 eightOf
  simp only [lanes16_ofLanes16, List.map_cons, List.map_nil, List.cons_append,
    List.nil_append, lp_shift]
  have : ∀ v : ℤ, (max 0 (min v 255)).toNat = Spec.clamp 255 v := fun v => by
    unfold Spec.clamp
    congr 1
  simp only [this]
  rfl

theorem lp8_ok {src : List ℕ} {stride : ℕ} {w : List ℤ} {b : Bounds} {total : ℕ}
    (h : VPre src stride w b total) :
    BlockOK total 8 (lp8 b src stride w) (lpAt src stride w b) := by
  intro x dst hl hx
  have hm : ∀ i, src.getD i 0 % 256 < 256 := fun i => Nat.mod_lt _ (by norm_num)
  have e5 := forRange_spec (a := 0) (b := b.size) (body := fun j (st : Reg) => do
    let w ← w[j]?
    let row ← load64 src (stride * (b.start + j) + x)
    let item := unpacklo8 row row
    some (add16 st (mulhrs16 (srli16 2 item) (set1epi16 w))))
    (inv := fun n => eightOf (lpAcc src stride w b x n)) (by omega) (by
      intro j _ hj
      have r0 := h.row (k := j) hj
      rw [h.get hj, load64_eq (by omega)]
      simp only [Option.bind_eq_bind, Option.bind_some]
      refine congrArg some ((lp_lane _ _ _ _ _ _ _ _
        (hm (stride * (b.start + j) + x + 0)) (hm (stride * (b.start + j) + x + 1))
        (hm (stride * (b.start + j) + x + 2)) (hm (stride * (b.start + j) + x + 3))
        (hm (stride * (b.start + j) + x + 4)) (hm (stride * (b.start + j) + x + 5))
        (hm (stride * (b.start + j) + x + 6)) (hm (stride * (b.start + j) + x + 7)) _ _ rfl).trans ?_)
      simp only [lpAcc_succ]
      rfl)
  obtain ⟨r, a⟩ := write_block (B := 8) (x := x) (total := total)
    (val := lpAt src stride w b) dst hl (by omega)
  refine ⟨r, ?_, a.2⟩
  unfold lp8
  rw [show set1epi16 LP_ROUNDING = eightOf (lpAcc src stride w b x 0) from rfl, e5]
  simp only [Option.bind_eq_bind, Option.bind_some]
  rw [lp_pack8, List.take_left' (by simp)]
  simp only [i16_lpAcc]
  rw [show (fun c => Spec.clamp 255 (lpAcc src stride w b x b.size c >>> 6)) =
    fun c => lpAt src stride w b (x + c) by
      funext c; unfold lpAt; rw [lpAcc_at]]
  exact a.1

theorem lp1_ok {src : List ℕ} {stride : ℕ} {w : List ℤ} {b : Bounds} {total : ℕ}
    (h : VPre src stride w b total) :
    BlockOK total 1 (lp1 b src stride w) (lpAt src stride w b) := by
  intro x dst hl hx
  have hm : ∀ i, src.getD i 0 % 256 < 256 := fun i => Nat.mod_lt _ (by norm_num)
  have e5 := forRange_spec (a := 0) (b := b.size) (body := fun j (st : Reg) => do
    let w ← w[j]?
    let v ← loadBytes src (stride * (b.start + j) + x) 1
    let v ← v[0]?
    let item := unpacklo8 (set1epi8 v) (set1epi8 v)
    some (add16 st (mulhrs16 (srli16 2 item) (set1epi16 w))))
    (inv := fun n => eightOf fun _ => lpAcc src stride w b x n 0) (by omega) (by
      intro j _ hj
      have r0 := h.row (k := j) hj
      rw [h.get hj, loadBytes_eq (by omega)]
      simp only [Option.bind_eq_bind, Option.bind_some]
      rw [show ((List.range 1).map fun c => src.getD (stride * (b.start + j) + x + c) 0 % 256)[0]? =
        some (src.getD (stride * (b.start + j) + x + 0) 0 % 256) from rfl]
      simp only [Option.bind_some]
      refine congrArg some ((lp_lane _ _ _ _ _ _ _ _
        (hm (stride * (b.start + j) + x + 0)) (hm (stride * (b.start + j) + x + 0))
        (hm (stride * (b.start + j) + x + 0)) (hm (stride * (b.start + j) + x + 0))
        (hm (stride * (b.start + j) + x + 0)) (hm (stride * (b.start + j) + x + 0))
        (hm (stride * (b.start + j) + x + 0)) (hm (stride * (b.start + j) + x + 0)) _ _ rfl).trans ?_)
      simp only [lpAcc_succ]
      rfl)
  obtain ⟨r, a⟩ := write_block (B := 1) (x := x) (total := total)
    (val := lpAt src stride w b) dst hl (by omega)
  refine ⟨r, ?_, a.2⟩
  unfold lp1
  rw [show set1epi16 LP_ROUNDING = eightOf (fun _ => lpAcc src stride w b x 0 0) from rfl, e5]
  simp only [Option.bind_eq_bind, Option.bind_some]
  rw [lp_pack8]
  rw [show ((List.range 8).map (fun _ => Spec.clamp 255 (i16 (lpAcc src stride w b x b.size 0) >>> 6)) ++
      (List.range 8).map (fun _ => Spec.clamp 255 (i16 (lpAcc src stride w b x b.size 0) >>> 6))).take 1 =
      (List.range 1).map (fun c => Spec.clamp 255 (i16 (lpAcc src stride w b x b.size c) >>> 6)) from rfl]
  simp only [i16_lpAcc]
  rw [show (fun c => Spec.clamp 255 (lpAcc src stride w b x b.size c >>> 6)) =
    fun c => lpAt src stride w b (x + c) by
      funext c; unfold lpAt; rw [lpAcc_at]]
  exact a.1

theorem lp16avx_ok {src : List ℕ} {stride : ℕ} {w : List ℤ} {b : Bounds} {total : ℕ}
    (h : VPre src stride w b total) :
    BlockOK total 16 (lp16avx b src stride w) (lpAt src stride w b) := by
  intro x dst hl hx
  have hm : ∀ i, src.getD i 0 % 256 < 256 := fun i => Nat.mod_lt _ (by norm_num)
  have e5 := forRange_spec (a := 0) (b := b.size) (body := fun j (st : Reg × Reg) => do
    let w ← w[j]?
    let row ← load128 src (stride * (b.start + j) + x)
    let item := permute50 row
    let item := (unpacklo8 item.1 item.1, unpacklo8 item.2 item.2)
    some (add16 st.1 (mulhrs16 (srli16 2 item.1) (set1epi16 w)),
      add16 st.2 (mulhrs16 (srli16 2 item.2) (set1epi16 w))))
    (inv := fun n => pairOf (lpAcc src stride w b x n)) (by omega) (by
      intro j _ hj
      have r0 := h.row (k := j) hj
      rw [h.get hj, load128_eq (by omega)]
      simp only [Option.bind_eq_bind, Option.bind_some]
      refine congrArg some ((mdot_of (lpAcc src stride w b x j)
        (p := fun c => src.getD (stride * (b.start + j) + x + c) 0 % 256)
        (fun c => hm _) (w.getD j 0)).trans ?_)
      simp only [lpAcc_succ])
  obtain ⟨r, a⟩ := write_block (B := 16) (x := x) (total := total)
    (val := lpAt src stride w b) dst hl (by omega)
  refine ⟨r, ?_, a.2⟩
  unfold lp16avx
  rw [show (set1epi16 LP_ROUNDING, set1epi16 LP_ROUNDING) = pairOf (lpAcc src stride w b x 0) from rfl,
    e5]
  simp only [Option.bind_eq_bind, Option.bind_some]
  rw [show (pairOf (lpAcc src stride w b x b.size)).1 = eightOf (lpAcc src stride w b x b.size) from rfl,
    show (pairOf (lpAcc src stride w b x b.size)).2 =
      eightOf (fun c => lpAcc src stride w b x b.size (8 + c)) from rfl, lp_pack8, lp_pack8]
  simp only [i16_lpAcc, permuteMiddle]
  rw [List.take_left' (by simp), List.take_left' (by simp)]
  have hv := range_append_map (B := 8) (C := 8) (lpAt src stride w b) x
  rw [← hv] at a
  have : ∀ c, lpAt src stride w b (x + c) =
      Spec.clamp 255 (lpAcc src stride w b x b.size c >>> 6) := fun c => by
    unfold lpAt; rw [← lpAcc_at]
  simp only [Nat.add_assoc] at a
  simp only [this] at a
  exact a.1

theorem sseColumnLp_spec {src dst : List ℕ} {stride : ℕ} {w : List ℤ} {b : Bounds}
    (h : VPre src stride w b dst.length) :
    sseColumnLp b src dst stride w =
      some ((List.range dst.length).map (lpAt src stride w b)) := by
  obtain ⟨n1, r1, a1, a2, a3, a4, a5, a6, a7⟩ := whileBlocks_from (margin := 63) (step := 64)
    (by omega) (by omega) (lpBlock_ok 4 h) dst.length 0 dst rfl (by omega) (by omega)
  obtain ⟨n2, r2, b1, b2, b3, b4, b5, b6, b7⟩ := whileBlocks_from (margin := 31) (step := 32)
    (by omega) (by omega) (lpBlock_ok 2 h) dst.length (0 + n1 * 64) r1 a2 a3 (by omega)
  obtain ⟨n3, r3, c1, c2, c3, c4, c5, c6, c7⟩ := whileBlocks_from (margin := 15) (step := 16)
    (by omega) (by omega) (lpBlockUnrolled_ok 1 h) dst.length (0 + n1 * 64 + n2 * 32) r2 b2 b3 (by omega)
  obtain ⟨n4, r4, d1, d2, d3, d4, d5, d6, d7⟩ := whileBlocks_from (margin := 7) (step := 8)
    (by omega) (by omega) (lp8_ok h) dst.length (0 + n1 * 64 + n2 * 32 + n3 * 16) r3 c2 c3 (by omega)
  obtain ⟨n5, r5, e1, e2, e3, e4, e5, e6, e7⟩ := whileBlocks_from (margin := 0) (step := 1)
    (by omega) (by omega) (lp1_ok h) dst.length (0 + n1 * 64 + n2 * 32 + n3 * 16 + n4 * 8) r4 d2 d3 (by omega)
  have hr : r5 = (List.range dst.length).map (lpAt src stride w b) := by
    apply List.ext_getElem?
    intro p
    by_cases hp : p < dst.length
    · rw [List.getElem?_map, List.getElem?_range hp, Option.map_some]
      by_cases q4 : p < 0 + n1 * 64 + n2 * 32 + n3 * 16 + n4 * 8
      · rw [e6 p q4]
        by_cases q3 : p < 0 + n1 * 64 + n2 * 32 + n3 * 16
        · rw [d6 p q3]
          by_cases q2 : p < 0 + n1 * 64 + n2 * 32
          · rw [c6 p q2]
            by_cases q1 : p < 0 + n1 * 64
            · rw [b6 p q1]; exact a7 p (by omega) q1
            · exact b7 p (by omega) q2
          · exact c7 p (by omega) q3
        · exact d7 p (by omega) q4
      · exact e7 p (by omega) (by omega)
    · rw [List.getElem?_eq_none (by omega), List.getElem?_eq_none (by simp; omega)]
  unfold sseColumnLp
  simp only [Option.bind_eq_bind, a1, b1, c1, d1, e1, Option.bind_some, hr]

theorem avxColumnLp_spec {src dst : List ℕ} {stride : ℕ} {w : List ℤ} {b : Bounds}
    (h : VPre src stride w b dst.length) :
    avxColumnLp b src dst stride w =
      some ((List.range dst.length).map (lpAt src stride w b)) := by
  obtain ⟨n1, r1, a1, a2, a3, a4, a5, a6, a7⟩ := whileBlocks_from (margin := 63) (step := 64)
    (by omega) (by omega) (lpBlockUnrolled_ok 4 h) dst.length 0 dst rfl (by omega) (by omega)
  obtain ⟨n2, r2, b1, b2, b3, b4, b5, b6, b7⟩ := whileBlocks_from (margin := 31) (step := 32)
    (by omega) (by omega) (lpBlockUnrolled_ok 2 h) dst.length (0 + n1 * 64) r1 a2 a3 (by omega)
  obtain ⟨n3, r3, c1, c2, c3, c4, c5, c6, c7⟩ := whileBlocks_from (margin := 15) (step := 16)
    (by omega) (by omega) (lp16avx_ok h) dst.length (0 + n1 * 64 + n2 * 32) r2 b2 b3 (by omega)
  obtain ⟨n4, r4, d1, d2, d3, d4, d5, d6, d7⟩ := whileBlocks_from (margin := 7) (step := 8)
    (by omega) (by omega) (lp8_ok h) dst.length (0 + n1 * 64 + n2 * 32 + n3 * 16) r3 c2 c3 (by omega)
  obtain ⟨n5, r5, e1, e2, e3, e4, e5, e6, e7⟩ := whileBlocks_from (margin := 0) (step := 1)
    (by omega) (by omega) (lp1_ok h) dst.length (0 + n1 * 64 + n2 * 32 + n3 * 16 + n4 * 8) r4 d2 d3 (by omega)
  have hr : r5 = (List.range dst.length).map (lpAt src stride w b) := by
    apply List.ext_getElem?
    intro p
    by_cases hp : p < dst.length
    · rw [List.getElem?_map, List.getElem?_range hp, Option.map_some]
      by_cases q4 : p < 0 + n1 * 64 + n2 * 32 + n3 * 16 + n4 * 8
      · rw [e6 p q4]
        by_cases q3 : p < 0 + n1 * 64 + n2 * 32 + n3 * 16
        · rw [d6 p q3]
          by_cases q2 : p < 0 + n1 * 64 + n2 * 32
          · rw [c6 p q2]
            by_cases q1 : p < 0 + n1 * 64
            · rw [b6 p q1]; exact a7 p (by omega) q1
            · exact b7 p (by omega) q2
          · exact c7 p (by omega) q3
        · exact d7 p (by omega) q4
      · exact e7 p (by omega) (by omega)
    · rw [List.getElem?_eq_none (by omega), List.getElem?_eq_none (by simp; omega)]
  unfold avxColumnLp
  simp only [Option.bind_eq_bind, a1, b1, c1, d1, e1, Option.bind_some, hr]

end PicScale
