import Verif.Lemmas.X86U16

/-! The x86 RGBA row handlers for u16 images up to 12 bits. -/

namespace PicScale

open Finset Spec

/-- Samples of channel `c` under the window, in the row that starts at `o`. -/
def rowSamples (src : List ℕ) (o : ℕ) (b : Bounds) (c k : ℕ) : ℕ := src.getD (o + (b.start + k) * 4 + c) 0

/-- Term of tap `k`. -/
def tap16 (w : List ℤ) (s : ℕ → ℕ) (k : ℕ) : ℤ := i16 (w.getD k 0) * i16 ((s k % 65536 : ℕ) : ℤ)

theorem acc16_tap (w : List ℤ) (s : ℕ → ℕ) (n : ℕ) : acc16 w s (n + 1) = i32 (acc16 w s n + tap16 w s n) :=
  (acc16_succ w s n).symm

theorem acc16_tap2 (w : List ℤ) (s : ℕ → ℕ) (n : ℕ) :
    acc16 w s (n + 2) = i32 (acc16 w s n + (tap16 w s n + tap16 w s (n + 1))) := by
  rw [acc16_tap, acc16_tap, i32_i32_add, add_assoc]

theorem acc16_tap4 (w : List ℤ) (s : ℕ → ℕ) (n : ℕ) :
    acc16 w s (n + 4) = i32 (acc16 w s n + (tap16 w s n + tap16 w s (n + 1) + tap16 w s (n + 2) + tap16 w s (n + 3))) := by
  rw [acc16_tap, acc16_tap, acc16_tap, acc16_tap]
  simp only [i32_i32_add, add_assoc]

/-- State of one row: the four channels. -/
def Lb16Inv (src : List ℕ) (w : List ℤ) (b : Bounds) (o n : ℕ) (s : Reg) : Prop :=
  s = lanes4 fun c => acc16 w (rowSamples src o b c) n

variable {src : List ℕ} {offs : List ℕ} {w : List ℤ} {b : Bounds}

/-- Two pixels in a register. -/
def pair16 (src : List ℕ) (o : ℕ) (b : Bounds) (n i : ℕ) : ℕ :=
  (if i < 4 then rowSamples src o b i n else rowSamples src o b (i - 4) (n + 1)) % 65536

theorem pair16_lt (o n i : ℕ) : pair16 src o b n i < 65536 := mod16_lt _

theorem load_pair {o jx q : ℕ} (h : o + (b.start + jx + (q + 2)) * 4 ≤ src.length) :
    load128w src (o + (b.start + jx) * 4 + 4 * q) = some (lanes8 fun i => (pair16 src o b (jx + q) i : ℤ)) := by
  rw [load128w_eq (by omega)]
  congr 1
  apply lanes8_congr
  intro i hi
  unfold pair16 rowSamples
  split_ifs with h4
  · rw [show o + (b.start + jx) * 4 + 4 * q + i = o + (b.start + (jx + q)) * 4 + i by omega]
  · rw [show o + (b.start + jx) * 4 + 4 * q + i = o + (b.start + (jx + q + 1)) * 4 + (i - 4) by omega]

theorem load_pairAt {o jx off m : ℕ} (q : ℕ) (hoff : off = 4 * q) (hm : m = jx + q) (n : ℕ) (hn : jx + (q + 2) ≤ n)
    (h : o + (b.start + n) * 4 ≤ src.length) :
    load128w src (o + (b.start + jx) * 4 + off) = some (lanes8 fun i => (pair16 src o b m i : ℤ)) := by
  subst hoff hm
  apply load_pair
  omega

theorem load_one {o jx : ℕ} (h : o + (b.start + jx + 1) * 4 ≤ src.length) :
    load64w src (o + (b.start + jx) * 4) =
      some (lanes8 fun i => ((if i < 4 then rowSamples src o b i jx % 65536 else 0 : ℕ) : ℤ)) := by
  rw [load64w_eq (by omega)]
  rfl

theorem unpacklo_pair (o n : ℕ) : unpacklo16 (lanes8 fun i => (pair16 src o b n i : ℤ)) setzero =
    lanes4 fun c => ((rowSamples src o b c n % 65536 : ℕ) : ℤ) := by
  have bb := u16s_bounds (fun i => pair16 src o b n i) (fun i => pair16_lt _ _ _)
  rw [unpacklo16_zero bb.1 bb.2]
  apply lanes4_congr
  intro i hi
  unfold pair16
  rw [if_pos hi]

theorem unpackhi_pair (o n : ℕ) : unpackhi16 (lanes8 fun i => (pair16 src o b n i : ℤ)) setzero =
    lanes4 fun c => ((rowSamples src o b c (n + 1) % 65536 : ℕ) : ℤ) := by
  have bb := u16s_bounds (fun i => pair16 src o b n i) (fun i => pair16_lt _ _ _)
  rw [unpackhi16_zero bb.1 bb.2]
  apply lanes4_congr
  intro i hi
  unfold pair16
  rw [if_neg (by omega), Nat.add_sub_cancel_left]

theorem HPre.getW (h : HPre 4 src offs w b) {k : ℕ} (hk : k < b.size) : w[k]? = some (w.getD k 0) :=
  getElem?_eq_some_getD 0 (by have := h.weights; omega)

theorem px1_inv (h : HPre 4 src offs w b) {o : ℕ} (ho : o ∈ offs) {jx : ℕ} (hj : jx < b.size) (s : Reg)
    (hs : Lb16Inv src w b o jx s) :
    ∃ s', rgbaLb16Px1 src w b jx o s = some s' ∧ Lb16Inv src w b o (jx + 1) s' := by
  have hr := h.room ho (k := jx + 1) (by omega)
  subst hs
  refine ⟨_, ?_, rfl⟩
  unfold rgbaLb16Px1
  rw [h.getW hj, load_one (by omega)]
  simp only [Option.bind_eq_bind, Option.bind_some]
  rw [unpack_load64w (fun c => rowSamples src o b c jx), wdot4 _ (fun c => rowSamples src o b c jx % 65536) (fun i => mod16_lt _)]
  simp only [acc16_tap]
  rfl

theorem px2_inv (h : HPre 4 src offs w b) {o : ℕ} (ho : o ∈ offs) {jx : ℕ} (hj : jx + 2 ≤ b.size) (s : Reg)
    (hs : Lb16Inv src w b o jx s) :
    ∃ s', rgbaLb16Px2 src w b jx o s = some s' ∧ Lb16Inv src w b o (jx + 2) s' := by
  have hr := h.room ho (k := jx + 2) (by omega)
  have l0 : load128w src (o + (b.start + jx) * 4) = some (lanes8 fun i => (pair16 src o b jx i : ℤ)) := by
    have := load_pair (src := src) (b := b) (o := o) (jx := jx) (q := 0) (by omega)
    rwa [Nat.mul_zero, Nat.add_zero, Nat.add_zero] at this
  subst hs
  refine ⟨_, ?_, rfl⟩
  unfold rgbaLb16Px2
  rw [h.getW (show jx < b.size by omega), h.getW (show jx + 1 < b.size by omega), l0]
  simp only [Option.bind_eq_bind, Option.bind_some, Nat.add_zero]
  rw [unpackhi_pair, unpacklo_pair, wdot4 _ _ (fun i => mod16_lt _), wdot4 _ _ (fun i => mod16_lt _)]
  congr 1
  apply lanes4_congr
  intro c _
  rw [acc16_tap2, i32_i32_add, add_assoc, add_comm (i16 _ * _)]
  rfl

theorem four_of (o n : ℕ) (m : ℕ → ℤ) : rgbaLb16Four (lanes8 fun i => (pair16 src o b n i : ℤ))
      (lanes8 fun i => (pair16 src o b (n + 2) i : ℤ)) (w.getD n 0) (w.getD (n + 1) 0) (w.getD (n + 2) 0) (w.getD (n + 3) 0)
      (lanes4 m) =
    lanes4 fun c => i32 (m c + (tap16 w (rowSamples src o b c) n + tap16 w (rowSamples src o b c) (n + 1) +
      tap16 w (rowSamples src o b c) (n + 2) + tap16 w (rowSamples src o b c) (n + 3))) := by
  unfold rgbaLb16Four
  dsimp only
  rw [unpackhi_pair, unpacklo_pair, unpackhi_pair, unpacklo_pair, wdot4 _ _ (fun i => mod16_lt _), wdot4 _ _ (fun i => mod16_lt _), wdot4 _ _ (fun i => mod16_lt _),
    wdot4 _ _ (fun i => mod16_lt _)]
  apply lanes4_congr
  intro c _
  simp only [i32_i32_add]
  unfold tap16
  generalize i16 (w.getD n 0) * _ = t0
  generalize i16 (w.getD (n + 1) 0) * _ = t1
  generalize i16 (w.getD (n + 2) 0) * _ = t2
  rw [show n + 2 + 1 = n + 3 from rfl]
  generalize i16 (w.getD (n + 3) 0) * _ = t3
  congr 1
  ring

theorem px4_inv (h : HPre 4 src offs w b) {o : ℕ} (ho : o ∈ offs) {jx : ℕ} (hj : jx + 4 ≤ b.size) (s : Reg)
    (hs : Lb16Inv src w b o jx s) :
    ∃ s', rgbaLb16Px4 src w b jx o s = some s' ∧ Lb16Inv src w b o (jx + 4) s' := by
  have hr := h.room ho (k := jx + 4) (by omega)
  have l0 : load128w src (o + (b.start + jx) * 4) = some (lanes8 fun i => (pair16 src o b jx i : ℤ)) := by
    have := load_pair (src := src) (b := b) (o := o) (jx := jx) (q := 0) (by omega)
    rwa [Nat.mul_zero, Nat.add_zero, Nat.add_zero] at this
  have l1 : load128w src (o + (b.start + jx) * 4 + 8) = some (lanes8 fun i => (pair16 src o b (jx + 2) i : ℤ)) := by
    exact load_pairAt 2 (by norm_num) rfl _ (by omega) hr
  subst hs
  refine ⟨_, ?_, rfl⟩
  unfold rgbaLb16Px4
  rw [h.getW (show jx < b.size by omega), h.getW (show jx + 1 < b.size by omega), h.getW (show jx + 2 < b.size by omega),
    h.getW (show jx + 3 < b.size by omega), l0,
    l1]
  simp only [Option.bind_eq_bind, Option.bind_some, Nat.add_zero]
  rw [four_of]
  simp only [acc16_tap4]

theorem px8_inv (h : HPre 4 src offs w b) {o : ℕ} (ho : o ∈ offs) {jx : ℕ} (hj : jx + 8 ≤ b.size) (s : Reg)
    (hs : Lb16Inv src w b o jx s) :
    ∃ s', rgbaLb16Px8 src w b jx o s = some s' ∧ Lb16Inv src w b o (jx + 8) s' := by
  have hr := h.room ho (k := jx + 8) (by omega)
  have l0 : load128w src (o + (b.start + jx) * 4) = some (lanes8 fun i => (pair16 src o b jx i : ℤ)) := by
    have := load_pair (src := src) (b := b) (o := o) (jx := jx) (q := 0) (by omega)
    rwa [Nat.mul_zero, Nat.add_zero, Nat.add_zero] at this
  have l1 : load128w src (o + (b.start + jx) * 4 + 8) = some (lanes8 fun i => (pair16 src o b (jx + 2) i : ℤ)) := by
    exact load_pairAt 2 (by norm_num) rfl _ (by omega) hr
  have l2 : load128w src (o + (b.start + jx) * 4 + 16) = some (lanes8 fun i => (pair16 src o b (jx + 4) i : ℤ)) := by
    exact load_pairAt 4 (by norm_num) rfl _ (by omega) hr
  have l3 : load128w src (o + (b.start + jx) * 4 + 24) = some (lanes8 fun i => (pair16 src o b (jx + 6) i : ℤ)) := by
    exact load_pairAt 6 (by norm_num) rfl _ (by omega) hr
  subst hs
  refine ⟨_, ?_, rfl⟩
  unfold rgbaLb16Px8
  rw [h.getW (show jx < b.size by omega), h.getW (show jx + 1 < b.size by omega), h.getW (show jx + 2 < b.size by omega),
    h.getW (show jx + 3 < b.size by omega), h.getW (show jx + 4 < b.size by omega), h.getW (show jx + 5 < b.size by omega),
    h.getW (show jx + 6 < b.size by omega), h.getW (show jx + 7 < b.size by omega),
    l0,
    l1,
    l2,
    l3]
  simp only [Option.bind_eq_bind, Option.bind_some]
  have e : ∀ m : ℕ → ℤ, rgbaLb16Four (lanes8 fun i => (pair16 src o b (jx + 4) i : ℤ))
      (lanes8 fun i => (pair16 src o b (jx + 6) i : ℤ)) (w.getD (jx + 4) 0) (w.getD (jx + 5) 0) (w.getD (jx + 6) 0)
      (w.getD (jx + 7) 0) (lanes4 m) = _ := four_of (src := src) (w := w) (b := b) o (jx + 4)
  rw [four_of, e]
  simp only [show jx + 8 = jx + 4 + 4 from rfl, acc16_tap4]

theorem lb16Store_of (d o n : ℕ) (s : Reg) (hs : Lb16Inv src w b o n s) :
    rgbaLb16Store d s = (List.range 4).map fun c => lb16Val d (acc16 w (rowSamples src o b c) n) := by
  unfold Lb16Inv at hs
  unfold rgbaLb16Store
  dsimp only
  rw [hs, store4_of d (fun c => acc16 w (rowSamples src o b c) n) (fun i => i32_acc16 _ _ _)]

/-- The value of a pixel of the ≤ 12-bit RGBA row handlers. -/
def lbH (d : ℕ) (w : List ℤ) (b : Bounds) (f : ℕ → ℕ) (c : ℕ) : ℕ :=
  lb16Val d (acc16 w (fun k => f ((b.start + k) * 4 + c)) b.size)

theorem rowSamples_shift (o c : ℕ) : rowSamples src o b c = fun k => src.getD (o + ((b.start + k) * 4 + c)) 0 := by
  funext k
  unfold rowSamples
  rw [Nat.add_assoc]

theorem lb16_init (o : ℕ) : Lb16Inv src w b o 0 (set1epi32 ROUNDING_CONST) := by
  unfold Lb16Inv
  simp only [acc16_zero]
  exact set1epi32_of _

theorem rgbaSseLb16_ok (d : ℕ) (h : HPre 4 src offs w b) : rgbaSseLb16 d src offs w b =
    some (offs.map fun o => (List.range 4).map fun c => lbH d w b (fun i => src.getD (o + i) 0) c) := by
  unfold rgbaSseLb16
  obtain ⟨n8, s8, a1, a2, a3, a4, _⟩ := rowsLoop_inv (P := fun o n s => Lb16Inv src w b o n s) (margin := 8) (step := 8)
    (size := b.size) (jx := 0) (offs := offs) (f := rgbaLb16Px8 src w b) (by norm_num) (by norm_num)
    (fun m hm o ho s hs => px8_inv h ho (by omega) s hs) (by omega)
    (forall₂_init offs (set1epi32 ROUNDING_CONST) fun o _ => lb16_init o)
  obtain ⟨n4, s4, b1, b2, b3, b4, _⟩ := rowsLoop_inv (P := fun o n s => Lb16Inv src w b o n s) (margin := 4) (step := 4)
    (f := rgbaLb16Px4 src w b) (by norm_num) (by norm_num)
    (fun m hm o ho s hs => px4_inv h ho (by omega) s hs) a3 a2
  obtain ⟨n2, s2, c1, c2, c3, c4, _⟩ := rowsLoop_inv (P := fun o n s => Lb16Inv src w b o n s) (margin := 2) (step := 2)
    (f := rgbaLb16Px2 src w b) (by norm_num) (by norm_num)
    (fun m hm o ho s hs => px2_inv h ho (by omega) s hs) b3 b2
  obtain ⟨n1, s1, d1, d2, d3, d4, _⟩ := rowsLoop_inv (P := fun o n s => Lb16Inv src w b o n s) (margin := 0) (step := 1)
    (f := rgbaLb16Px1 src w b) (by norm_num) (by norm_num)
    (fun m hm o ho s hs => px1_inv h ho (by omega) s hs) c3 c2
  simp only [Option.bind_eq_bind]
  rw [a1]
  simp only [Option.bind_some]
  rw [b1]
  simp only [Option.bind_some]
  rw [c1]
  simp only [Option.bind_some]
  rw [d1]
  simp only [Option.bind_some]
  congr 1
  refine forall₂_eq d2 fun o _ s hs => ?_
  rw [show 0 + n8 * 8 + n4 * 4 + n2 * 2 + n1 * 1 = b.size by omega] at hs
  rw [lb16Store_of d o _ s hs]
  simp only [rowSamples_shift]
  rfl

/-! ### AVX2 -/

theorem lanes16_lanes8 (f : ℕ → ℤ) : lanes16 (lanes8 f) =
    [i16 (f 0), i16 (f 1), i16 (f 2), i16 (f 3), i16 (f 4), i16 (f 5), i16 (f 6), i16 (f 7)] := by
  unfold lanes8
  rw [lanes16_ofLanes16]
  rfl

/-- Pixels `n` and `n + 1`, interleaved, times their weights. -/
theorem dotPair (o n : ℕ) (m : ℕ → ℤ) (wr : Reg)
    (hw : wr = lanes8 fun i => if i % 2 = 0 then w.getD n 0 else w.getD (n + 1) 0) :
    add32 (lanes4 m) (madd16 (shuffle8 (lanes8 fun i => (pair16 src o b n i : ℤ)) avx16Shuffle2) wr) =
      lanes4 fun c => i32 (m c + (tap16 w (rowSamples src o b c) n + tap16 w (rowSamples src o b c) (n + 1))) := by
  have e : shuffle8 (lanes8 fun i => (pair16 src o b n i : ℤ)) avx16Shuffle2 =
      lanes8 fun i => if i % 2 = 0 then (pair16 src o b n (i / 2) : ℤ) else (pair16 src o b n (4 + i / 2) : ℤ) := rfl
  subst hw
  have key := madd_add [m 0, m 1, m 2, m 3] _ _ _ _ _ _ _ _ (m 0) (m 1) (m 2) (m 3) _ _ _ _ _ _ _ _ rfl _ _
    ((congrArg lanes16 e).trans (lanes16_lanes8 _)) (lanes16_lanes8 fun i => if i % 2 = 0 then w.getD n 0 else w.getD (n + 1) 0)
  have l : lanes4 m = ofLanes32 [m 0, m 1, m 2, m 3] := rfl
  rw [l, key]
  have p0 : ∀ i, i < 4 → pair16 src o b n i = rowSamples src o b i n % 65536 := fun i hi => by
    unfold pair16; rw [if_pos hi]
  have p1 : ∀ i, pair16 src o b n (4 + i) = rowSamples src o b i (n + 1) % 65536 := fun i => by
    unfold pair16; rw [if_neg (by omega), Nat.add_sub_cancel_left]
  have t : ∀ c k, tap16 w (rowSamples src o b c) k = i16 ((rowSamples src o b c k % 65536 : ℕ) : ℤ) * i16 (w.getD k 0) :=
    fun c k => mul_comm _ _
  simp only [t]
  simp only [Nat.reduceMod, Nat.reduceDiv, if_true, one_ne_zero, if_false, p1, p0 0 (by norm_num), p0 1 (by norm_num),
    p0 2 (by norm_num), p0 3 (by norm_num)]
  rfl

theorem perm_lo4 (four : Bool) {jx : ℕ} : shuffle8 (shuffle32 (avx16Permute four).1 (ofLanes16 ((List.range 4).map fun k => w.getD (jx + k) 0) ++ List.replicate (16 - 2 * 4) 0)) avx16Weights =
    lanes8 fun i => if i % 2 = 0 then w.getD jx 0 else w.getD (jx + 1) 0 := by cases four <;> rfl

theorem perm_hi4 (four : Bool) {jx : ℕ} : shuffle8 (shuffle32 (avx16Permute four).2 (ofLanes16 ((List.range 4).map fun k => w.getD (jx + k) 0) ++ List.replicate (16 - 2 * 4) 0)) avx16Weights =
    lanes8 fun i => if i % 2 = 0 then w.getD (jx + 2) 0 else w.getD (jx + 2 + 1) 0 := by cases four <;> rfl

theorem perm_lo8 (four : Bool) {jx : ℕ} : shuffle8 (shuffle32 (avx16Permute four).1 (ofLanes16 ((List.range 8).map fun k => w.getD (jx + k) 0) ++ List.replicate (16 - 2 * 8) 0)) avx16Weights =
    lanes8 fun i => if i % 2 = 0 then w.getD jx 0 else w.getD (jx + 1) 0 := by cases four <;> rfl

theorem perm_hi8 (four : Bool) {jx : ℕ} : shuffle8 (shuffle32 (avx16Permute four).2 (ofLanes16 ((List.range 8).map fun k => w.getD (jx + k) 0) ++ List.replicate (16 - 2 * 8) 0)) avx16Weights =
    lanes8 fun i => if i % 2 = 0 then w.getD (jx + 2) 0 else w.getD (jx + 2 + 1) 0 := by cases four <;> rfl

theorem perm_w4 (jx : ℕ) : shuffle8 (shuffle32 [2, 2, 2, 2] (ofLanes16 ((List.range 8).map fun k => w.getD (jx + k) 0) ++ List.replicate (16 - 2 * 8) 0)) avx16Weights =
    lanes8 fun i => if i % 2 = 0 then w.getD (jx + 4) 0 else w.getD (jx + 4 + 1) 0 := rfl

theorem perm_w6 (jx : ℕ) : shuffle8 (shuffle32 [3, 3, 3, 3] (ofLanes16 ((List.range 8).map fun k => w.getD (jx + k) 0) ++ List.replicate (16 - 2 * 8) 0)) avx16Weights =
    lanes8 fun i => if i % 2 = 0 then w.getD (jx + 6) 0 else w.getD (jx + 6 + 1) 0 := rfl

theorem perm_w2 (jx : ℕ) : shuffle8 (ofLanes16 ((List.range 2).map fun k => w.getD (jx + k) 0) ++ List.replicate (16 - 2 * 2) 0) avx16Weights =
    lanes8 fun i => if i % 2 = 0 then w.getD jx 0 else w.getD (jx + 1) 0 := rfl

/-- State of one row in the loops with 256-bit accumulators: the two halves add up. -/
def Avx16Inv (src : List ℕ) (w : List ℤ) (b : Bounds) (o n : ℕ) (s : Reg × Reg) : Prop :=
  ∃ f g : ℕ → ℤ, s = (lanes4 f, lanes4 g) ∧ ∀ c, i32 (f c + g c) = acc16 w (rowSamples src o b c) n

theorem avxPx4_inv (four : Bool) (h : HPre 4 src offs w b) {o : ℕ} (ho : o ∈ offs) {jx : ℕ} (hj : jx + 4 ≤ b.size)
    (s : Reg × Reg) (hs : Avx16Inv src w b o jx s) :
    ∃ s', rgbaAvx16Px4 four src w b jx o s = some s' ∧ Avx16Inv src w b o (jx + 4) s' := by
  have hr := h.room ho (k := jx + 4) (by omega)
  have l0 : load128w src (o + (b.start + jx) * 4) = some (lanes8 fun i => (pair16 src o b jx i : ℤ)) := by
    have := load_pair (src := src) (b := b) (o := o) (jx := jx) (q := 0) (by omega)
    rwa [Nat.mul_zero, Nat.add_zero, Nat.add_zero] at this
  have l1 : load128w src (o + (b.start + jx) * 4 + 8) = some (lanes8 fun i => (pair16 src o b (jx + 2) i : ℤ)) := by
    exact load_pairAt 2 (by norm_num) rfl _ (by omega) hr
  have hwl := h.weights
  obtain ⟨f, g, rfl, hfg⟩ := hs
  have key : rgbaAvx16Px4 four src w b jx o (lanes4 f, lanes4 g) = some
      (lanes4 fun c => i32 (f c + (tap16 w (rowSamples src o b c) jx + tap16 w (rowSamples src o b c) (jx + 1))),
       lanes4 fun c => i32 (g c + (tap16 w (rowSamples src o b c) (jx + 2) + tap16 w (rowSamples src o b c) (jx + 3)))) := by
    unfold rgbaAvx16Px4
    rw [loadWeights_eq (by omega), l0,
      l1]
    simp only [Option.bind_eq_bind, Option.bind_some]
    unfold dot16x2 shuffle8x2
    dsimp only
    rw [dotPair (w := w) o jx f _ (perm_lo4 four), dotPair (w := w) o (jx + 2) g _ (perm_hi4 four)]
  refine ⟨_, key, _, _, rfl, ?_⟩
  intro c
  rw [acc16_tap4, ← hfg c]
  simp only [i32_i32_add, i32_add_i32]
  congr 1
  ring

theorem avxPx8_inv (four : Bool) (h : HPre 4 src offs w b) {o : ℕ} (ho : o ∈ offs) {jx : ℕ} (hj : jx + 8 ≤ b.size)
    (s : Reg × Reg) (hs : Avx16Inv src w b o jx s) :
    ∃ s', rgbaAvx16Px8 four src w b jx o s = some s' ∧ Avx16Inv src w b o (jx + 8) s' := by
  have hr := h.room ho (k := jx + 8) (by omega)
  have l0 : load128w src (o + (b.start + jx) * 4) = some (lanes8 fun i => (pair16 src o b jx i : ℤ)) := by
    have := load_pair (src := src) (b := b) (o := o) (jx := jx) (q := 0) (by omega)
    rwa [Nat.mul_zero, Nat.add_zero, Nat.add_zero] at this
  have l1 : load128w src (o + (b.start + jx) * 4 + 8) = some (lanes8 fun i => (pair16 src o b (jx + 2) i : ℤ)) := by
    exact load_pairAt 2 (by norm_num) rfl _ (by omega) hr
  have l2 : load128w src (o + (b.start + jx) * 4 + 16) = some (lanes8 fun i => (pair16 src o b (jx + 4) i : ℤ)) := by
    exact load_pairAt 4 (by norm_num) rfl _ (by omega) hr
  have l3 : load128w src (o + (b.start + jx) * 4 + 24) = some (lanes8 fun i => (pair16 src o b (jx + 6) i : ℤ)) := by
    exact load_pairAt 6 (by norm_num) rfl _ (by omega) hr
  have hwl := h.weights
  obtain ⟨f, g, rfl, hfg⟩ := hs
  have key : rgbaAvx16Px8 four src w b jx o (lanes4 f, lanes4 g) = some
      (lanes4 fun c => i32 (i32 (f c + (tap16 w (rowSamples src o b c) jx + tap16 w (rowSamples src o b c) (jx + 1))) +
        (tap16 w (rowSamples src o b c) (jx + 4) + tap16 w (rowSamples src o b c) (jx + 5))),
       lanes4 fun c => i32 (i32 (g c + (tap16 w (rowSamples src o b c) (jx + 2) + tap16 w (rowSamples src o b c) (jx + 3))) +
        (tap16 w (rowSamples src o b c) (jx + 6) + tap16 w (rowSamples src o b c) (jx + 7)))) := by
    unfold rgbaAvx16Px8
    rw [loadWeights_eq (by omega), l0,
      l1,
      l2,
      l3]
    simp only [Option.bind_eq_bind, Option.bind_some]
    unfold dot16x2 shuffle8x2
    dsimp only
    rw [dotPair (w := w) o jx f _ (perm_lo8 four), dotPair (w := w) o (jx + 2) g _ (perm_hi8 four),
      dotPair (w := w) o (jx + 4) _ _ (perm_w4 jx), dotPair (w := w) o (jx + 6) _ _ (perm_w6 jx)]
  refine ⟨_, key, _, _, rfl, ?_⟩
  intro c
  rw [show jx + 8 = jx + 4 + 4 from rfl, acc16_tap4, acc16_tap4, ← hfg c]
  simp only [i32_i32_add, i32_add_i32, Nat.add_assoc, Nat.reduceAdd]
  congr 1
  ring

theorem avxPx2_inv (h : HPre 4 src offs w b) {o : ℕ} (ho : o ∈ offs) {jx : ℕ} (hj : jx + 2 ≤ b.size) (s : Reg)
    (hs : Lb16Inv src w b o jx s) :
    ∃ s', rgbaAvx16Px2 src w b jx o s = some s' ∧ Lb16Inv src w b o (jx + 2) s' := by
  have hr := h.room ho (k := jx + 2) (by omega)
  have l0 : load128w src (o + (b.start + jx) * 4) = some (lanes8 fun i => (pair16 src o b jx i : ℤ)) := by
    have := load_pair (src := src) (b := b) (o := o) (jx := jx) (q := 0) (by omega)
    rwa [Nat.mul_zero, Nat.add_zero, Nat.add_zero] at this
  have hwl := h.weights
  subst hs
  refine ⟨_, ?_, rfl⟩
  unfold rgbaAvx16Px2
  rw [loadWeights_eq (by omega), l0]
  simp only [Option.bind_eq_bind, Option.bind_some]
  rw [dotPair (w := w) o jx _ _ (perm_w2 jx)]
  simp only [acc16_tap2]

theorem avxPx1_inv (h : HPre 4 src offs w b) {o : ℕ} (ho : o ∈ offs) {jx : ℕ} (hj : jx < b.size) (s : Reg)
    (hs : Lb16Inv src w b o jx s) :
    ∃ s', rgbaAvx16Px1 src w b jx o s = some s' ∧ Lb16Inv src w b o (jx + 1) s' := by
  have hr := h.room ho (k := jx + 1) (by omega)
  subst hs
  refine ⟨_, ?_, rfl⟩
  unfold rgbaAvx16Px1
  rw [h.getW hj, load_one (by omega)]
  simp only [Option.bind_eq_bind, Option.bind_some]
  have e1 : shuffle8 (set1epi16 (w.getD jx 0)) avx16Weights = set1epi16 (w.getD jx 0) := rfl
  have e2 : ∀ v : ℕ → ℕ, shuffle8 (lanes8 fun i => (v i : ℤ)) avx16Shuffle1 = unpacklo16 (lanes8 fun i => (v i : ℤ)) setzero :=
    fun _ => rfl
  rw [e1, e2, unpack_load64w (fun c => rowSamples src o b c jx), wdot4 _ (fun c => rowSamples src o b c jx % 65536) (fun i => mod16_lt _)]
  simp only [acc16_tap]
  rfl

theorem rgbaAvxLb16_ok (four : Bool) (d : ℕ) (h : HPre 4 src offs w b) : rgbaAvxLb16 four d src offs w b =
    some (offs.map fun o => (List.range 4).map fun c => lbH d w b (fun i => src.getD (o + i) 0) c) := by
  unfold rgbaAvxLb16
  obtain ⟨n8, s8, a1, a2, a3, a4, _⟩ := rowsLoop_inv (P := fun o n s => Avx16Inv src w b o n s) (margin := 8) (step := 8)
    (size := b.size) (jx := 0) (offs := offs) (f := rgbaAvx16Px8 four src w b) (by norm_num) (by norm_num)
    (fun m hm o ho s hs => avxPx8_inv four h ho (by omega) s hs) (by omega)
    (forall₂_init offs (setr32 [ROUNDING_CONST, ROUNDING_CONST, ROUNDING_CONST, ROUNDING_CONST], setr32 [0, 0, 0, 0])
      fun o _ => ⟨fun _ => 16384, fun _ => 0, rfl, fun c => by rw [acc16_zero, add_zero, i32_round]⟩)
  obtain ⟨n4, s4, b1, b2, b3, b4, _⟩ := rowsLoop_inv (P := fun o n s => Avx16Inv src w b o n s) (margin := 4) (step := 4)
    (f := rgbaAvx16Px4 four src w b) (by norm_num) (by norm_num)
    (fun m hm o ho s hs => avxPx4_inv four h ho (by omega) s hs) a3 a2
  have b2' := forall₂_map (Q := fun o s => Lb16Inv src w b o (0 + n8 * 8 + n4 * 4) s) (g := fun s : Reg × Reg => add32 s.1 s.2)
    b2 (fun o _ s hs => by
      obtain ⟨f, g, rfl, hfg⟩ := hs
      show add32 (lanes4 f) (lanes4 g) = _
      rw [add32_of]
      simp only [i32_i32_add, i32_add_i32, hfg])
  obtain ⟨n2, s2, c1, c2, c3, c4, _⟩ := rowsLoop_inv (P := fun o n s => Lb16Inv src w b o n s) (margin := 2) (step := 2)
    (f := rgbaAvx16Px2 src w b) (by norm_num) (by norm_num)
    (fun m hm o ho s hs => avxPx2_inv h ho (by omega) s hs) b3 b2'
  obtain ⟨n1, s1, d1, d2, d3, d4, _⟩ := rowsLoop_inv (P := fun o n s => Lb16Inv src w b o n s) (margin := 0) (step := 1)
    (f := rgbaAvx16Px1 src w b) (by norm_num) (by norm_num)
    (fun m hm o ho s hs => avxPx1_inv h ho (by omega) s hs) c3 c2
  simp only [Option.bind_eq_bind]
  rw [a1]
  simp only [Option.bind_some]
  rw [b1]
  simp only [Option.bind_some]
  rw [c1]
  simp only [Option.bind_some]
  rw [d1]
  simp only [Option.bind_some]
  congr 1
  refine forall₂_eq d2 fun o _ s hs => ?_
  rw [show 0 + n8 * 8 + n4 * 4 + n2 * 2 + n1 * 1 = b.size by omega] at hs
  rw [lb16Store_of d o _ s hs]
  simp only [rowSamples_shift]
  rfl

theorem lbH_local (d : ℕ) (w : List ℤ) (b : Bounds) (f g : ℕ → ℕ) (c : ℕ) (hc : c < 4)
    (h : ∀ i, i < (b.start + b.size) * 4 → f i = g i) : lbH d w b f c = lbH d w b g c := by
  unfold lbH acc16
  have e : wsum b.size (fun k => i16 (w.getD k 0)) (fun k => i16 (f ((b.start + k) * 4 + c) : ℤ)) =
      wsum b.size (fun k => i16 (w.getD k 0)) (fun k => i16 (g ((b.start + k) * 4 + c) : ℤ)) := ?_
  · rw [e]
  apply wsum_congr (fun _ _ => rfl)
  intro k hk
  rw [h _ (by
    have : (b.start + k + 1) * 4 ≤ (b.start + b.size) * 4 := Nat.mul_le_mul_right _ (by omega)
    omega)]

end PicScale
