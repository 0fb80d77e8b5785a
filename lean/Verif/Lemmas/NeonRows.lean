import Verif.Model.NeonU8
import Verif.Lemmas.SimdPassG
import Verif.Lemmas.SimdValues
import Mathlib.Tactic.IntervalCases

/-!
The NEON horizontal handlers as pure functions of the window's pixels: they stay in bounds, rows do not
influence each other, and only pixels of the window matter.
-/

namespace PicScale

open Finset Spec

/-! ### Loops without memory accesses -/

/-- `whileAcc` with a body that cannot fail: the final state. -/
def pureLoop {σ : Type} (margin step size : ℕ) (g : ℕ → σ → σ) : ℕ → ℕ → σ → σ
  | 0, _, s => s
  | fuel + 1, jx, s =>
    if jx + margin < size then pureLoop margin step size g fuel (jx + step) (g jx s) else s

/-- `whileAcc`: the final position. -/
def loopEnd (margin step size : ℕ) : ℕ → ℕ → ℕ
  | 0, jx => jx
  | fuel + 1, jx => if jx + margin < size then loopEnd margin step size fuel (jx + step) else jx

theorem rowsStep_pure {σ : Type} {offs : List ℕ} {f : ℕ → σ → Option σ} {g : ℕ → σ → σ} {s0 : ℕ → σ}
    (h : ∀ o ∈ offs, ∀ s, f o s = some (g o s)) :
    rowsStep offs f (offs.map s0) = some (offs.map fun o => g o (s0 o)) := by
  induction offs with
  | nil => rfl
  | cons o offs ih =>
    have := ih fun o ho => h o (by simp [ho])
    unfold rowsStep at this ⊢
    rw [List.map_cons, List.zip_cons_cons, List.mapM_cons]
    dsimp only
    rw [h o (by simp), this]
    rfl

theorem rowsLoop_pure {σ : Type} {margin step size jx : ℕ} {offs : List ℕ} {f : ℕ → ℕ → σ → Option σ}
    {g : ℕ → ℕ → σ → σ} {s0 : ℕ → σ}
    (h : ∀ jx, jx + margin < size → ∀ o ∈ offs, ∀ s, f jx o s = some (g o jx s)) :
    rowsLoop margin step size offs f jx (offs.map s0) =
      some (loopEnd margin step size size jx,
        offs.map fun o => pureLoop margin step size (g o) size jx (s0 o)) := by
  have key : ∀ fuel jx (s0 : ℕ → σ),
      whileAcc margin step size (fun jx st => rowsStep offs (f jx) st) fuel jx (offs.map s0) =
        some (loopEnd margin step size fuel jx,
          offs.map fun o => pureLoop margin step size (g o) fuel jx (s0 o)) := by
    intro fuel
    induction fuel with
    | zero => intro jx s0; rfl
    | succ fuel ih =>
      intro jx s0
      unfold whileAcc loopEnd pureLoop
      by_cases hlt : jx + margin < size
      · simp only [if_pos hlt]
        rw [rowsStep_pure (h jx hlt)]
        simp only [Option.bind_eq_bind, Option.bind_some]
        exact ih _ _
      · simp only [if_neg hlt]
  exact key size jx s0

/-- A loop keeps what every iteration keeps. -/
theorem pureLoop_inv {σ : Type} {P : ℕ → σ → Prop} {margin step size : ℕ} {g : ℕ → σ → σ}
    (hm : step ≤ margin + 1)
    (h : ∀ jx s, jx + margin < size → P jx s → P (jx + step) (g jx s)) :
    ∀ fuel jx s, jx ≤ size → P jx s →
      P (loopEnd margin step size fuel jx) (pureLoop margin step size g fuel jx s) ∧
        loopEnd margin step size fuel jx ≤ size := by
  intro fuel
  induction fuel with
  | zero => intro jx s h1 h2; exact ⟨h2, h1⟩
  | succ fuel ih =>
    intro jx s h1 h2
    unfold loopEnd pureLoop
    by_cases hlt : jx + margin < size
    · simp only [if_pos hlt]
      exact ih _ _ (by omega) (h jx s hlt h2)
    · simp only [if_neg hlt]
      exact ⟨h2, h1⟩

theorem loopEnd_eq {margin step size : ℕ} (hs : 1 ≤ step) (hm : step ≤ margin + 1) :
    ∀ fuel jx, jx ≤ size → size ≤ fuel + jx →
      size ≤ loopEnd margin step size fuel jx + margin := by
  intro fuel
  induction fuel with
  | zero => intro jx h1 h2; unfold loopEnd; omega
  | succ fuel ih =>
    intro jx h1 h2
    unfold loopEnd
    by_cases hlt : jx + margin < size
    · rw [if_pos hlt]
      exact ih _ (by omega) (by omega)
    · rw [if_neg hlt]
      omega

/-! ### Pixels -/

/-- Byte of channel `c` of the window's pixel `k` in a row `f`; 0 outside the window. -/
def winb (N : ℕ) (b : Bounds) (f : ℕ → ℕ) (k c : ℕ) : ℕ :=
  if k < b.size ∧ c < N then f ((b.start + k) * N + c) % 256 else 0

theorem winb_le (N : ℕ) (b : Bounds) (f : ℕ → ℕ) (k c : ℕ) : winb N b f k c ≤ 255 := by
  unfold winb
  split <;> omega

theorem winb_congr {N : ℕ} {b : Bounds} {f g : ℕ → ℕ}
    (h : ∀ i, i < (b.start + b.size) * N → f i = g i) : winb N b f = winb N b g := by
  funext k c
  unfold winb
  by_cases hk : k < b.size ∧ c < N
  · rw [if_pos hk, if_pos hk, h _ (idx_lt hk.1 hk.2)]
  · rw [if_neg hk, if_neg hk]

/-- `n` bytes of the window from byte `d` of pixel `jx`. -/
def pxRange (N : ℕ) (px : ℕ → ℕ → ℕ) (jx d n : ℕ) : List ℕ :=
  (List.range n).map fun i => px (jx + (d + i) / N) ((d + i) % N)

/-- `n` weights from the `jx`-th. -/
def wRange (w : List ℤ) (jx n : ℕ) : List ℤ := (List.range n).map fun i => w.getD (jx + i) 0

theorem loadW16_eq {w : List ℤ} {jx n : ℕ} (h : jx + n ≤ w.length) : loadW16 w jx n = some (wRange w jx n) := by
  unfold loadW16 wRange
  rw [slice?_eq_some (by omega) h, Nat.add_sub_cancel_left, slice_eq_map_range 0 h]

theorem loadBytes_win {N : ℕ} (hN : 0 < N) {src : List ℕ} {offs : List ℕ} {w : List ℤ} {b : Bounds}
    (hp : HPre N src offs w b) {o : ℕ} (ho : o ∈ offs) {jx d n : ℕ} (h : jx * N + d + n ≤ b.size * N) :
    loadBytes src (o + (b.start + jx) * N + d) n =
      some (pxRange N (winb N b fun i => src.getD (o + i) 0) jx d n) := by
  have hin := hp.inside o ho
  have e : (b.start + b.size) * N = b.start * N + b.size * N := by ring
  have e2 : (b.start + jx) * N = b.start * N + jx * N := by ring
  rw [loadBytes_px hN (by omega)]
  unfold pxRange
  congr 1
  apply List.map_congr_left
  intro i hi
  have hi : i < n := by simpa using hi
  unfold pxb winb
  have hk : jx + (d + i) / N < b.size := by
    have h1 : (jx * N + (d + i)) / N < b.size := by
      rw [Nat.div_lt_iff_lt_mul hN]; omega
    rwa [Nat.mul_comm, Nat.mul_add_div hN] at h1
  rw [if_pos ⟨hk, Nat.mod_lt _ hN⟩, Nat.add_assoc]

theorem pixels1_pure {N nw n : ℕ} (hN : 0 < N) (hn : n = nw * N) {core : List ℤ → List ℕ → List ℤ → List ℤ}
    {src : List ℕ} {offs : List ℕ} {w : List ℤ} {b : Bounds} (hp : HPre N src offs w b) {o : ℕ}
    (ho : o ∈ offs) {jx : ℕ} (h : jx + nw ≤ b.size) (s : List ℤ) :
    pixels1 N nw n core src w b jx o s =
      some (core (wRange w jx nw) (pxRange N (winb N b fun i => src.getD (o + i) 0) jx 0 n) s) := by
  have hw := hp.weights
  have hb : jx * N + 0 + n ≤ b.size * N := by
    have := Nat.mul_le_mul_right N h
    rw [Nat.add_mul] at this
    omega
  have := loadBytes_win hN hp ho hb
  rw [Nat.add_zero] at this
  unfold pixels1
  rw [loadW16_eq (by omega), this]
  rfl

theorem pixels2_pure {N nw n m : ℕ} (hN : 0 < N) (hn : n + m = nw * N)
    {core : List ℤ → List ℕ → List ℕ → List ℤ → List ℤ}
    {src : List ℕ} {offs : List ℕ} {w : List ℤ} {b : Bounds} (hp : HPre N src offs w b) {o : ℕ}
    (ho : o ∈ offs) {jx : ℕ} (h : jx + nw ≤ b.size) (s : List ℤ) :
    pixels2 N nw n m core src w b jx o s =
      some (core (wRange w jx nw) (pxRange N (winb N b fun i => src.getD (o + i) 0) jx 0 n)
        (pxRange N (winb N b fun i => src.getD (o + i) 0) jx n m) s) := by
  have hw := hp.weights
  have hb : jx * N + n + m ≤ b.size * N := by
    have := Nat.mul_le_mul_right N h
    rw [Nat.add_mul] at this
    omega
  have h1 := loadBytes_win hN hp ho (show jx * N + 0 + n ≤ b.size * N by omega)
  have h2 := loadBytes_win hN hp ho hb
  rw [Nat.add_zero] at h1
  unfold pixels2
  rw [loadW16_eq (by omega), h1, h2]
  rfl

/-! ### The handlers -/

/-- A step with one load, on pixels. -/
def step1 (N nw n : ℕ) (core : List ℤ → List ℕ → List ℤ → List ℤ) (w : List ℤ) (px : ℕ → ℕ → ℕ) (jx : ℕ)
    (s : List ℤ) : List ℤ := core (wRange w jx nw) (pxRange N px jx 0 n) s
/-- A step with two loads, on pixels. -/
def step2 (N nw n m : ℕ) (core : List ℤ → List ℕ → List ℕ → List ℤ → List ℤ) (w : List ℤ)
    (px : ℕ → ℕ → ℕ) (jx : ℕ) (s : List ℤ) : List ℤ :=
  core (wRange w jx nw) (pxRange N px jx 0 n) (pxRange N px jx n m) s

/-- Final accumulator of `rgbaNeon`. -/
def rgbaNeonAcc (D : Bool) (w : List ℤ) (n : ℕ) (px : ℕ → ℕ → ℕ) : List ℤ :=
  let s := List.replicate 4 (neonRnd D)
  let s := pureLoop 8 8 n (step2 4 8 16 16 (rgbaNeonCore8 D) w px) n 0 s
  let j := loopEnd 8 8 n n 0
  let s := pureLoop 4 4 n (step1 4 4 16 (rgbaNeonCore4 D) w px) n j s
  let j := loopEnd 4 4 n n j
  let s := pureLoop 2 2 n (step1 4 2 8 (rgbaNeonCore2 D) w px) n j s
  let j := loopEnd 2 2 n n j
  pureLoop 0 1 n (step1 4 1 4 (rgbaNeonCore1 D) w px) n j s

theorem rgbaNeon_pure {D : Bool} {src : List ℕ} {offs : List ℕ} {w : List ℤ} {b : Bounds}
    (hp : HPre 4 src offs w b) :
    rgbaNeon D src offs w b = some (offs.map fun o => (List.range 4).map fun c =>
      narrow32 D ((rgbaNeonAcc D w b.size (winb 4 b fun i => src.getD (o + i) 0)).getD c 0)) := by
  unfold rgbaNeon
  dsimp only
  rw [rowsLoop_pure (f := rgbaNeon8 D src w b) (g := fun o => step2 4 8 16 16 (rgbaNeonCore8 D) w (winb 4 b fun i => src.getD (o + i) 0))
    fun jx hj o ho s => pixels2_pure (by norm_num) (by norm_num) hp ho (by omega) s]
  simp only [Option.bind_eq_bind, Option.bind_some]
  rw [rowsLoop_pure (f := rgbaNeon4 D src w b) (g := fun o => step1 4 4 16 (rgbaNeonCore4 D) w (winb 4 b fun i => src.getD (o + i) 0))
    fun jx hj o ho s => pixels1_pure (by norm_num) (by norm_num) hp ho (by omega) s]
  simp only [Option.bind_some]
  rw [rowsLoop_pure (f := rgbaNeon2 D src w b) (g := fun o => step1 4 2 8 (rgbaNeonCore2 D) w (winb 4 b fun i => src.getD (o + i) 0))
    fun jx hj o ho s => pixels1_pure (by norm_num) (by norm_num) hp ho (by omega) s]
  simp only [Option.bind_some]
  rw [rowsLoop_pure (f := rgbaNeon1 D src w b) (g := fun o => step1 4 1 4 (rgbaNeonCore1 D) w (winb 4 b fun i => src.getD (o + i) 0))
    fun jx hj o ho s => pixels1_pure (by norm_num) (by norm_num) hp ho (by omega) s]
  simp only [Option.bind_some, List.map_map]
  rfl

/-- Final accumulator of `rgbNeon`. -/
def rgbNeonAcc (D : Bool) (w : List ℤ) (n : ℕ) (px : ℕ → ℕ → ℕ) : List ℤ :=
  let s := List.replicate 4 (neonRnd D)
  let s := pureLoop 4 4 n (step2 3 4 8 4 (rgbNeonCore4 D) w px) n 0 s
  let j := loopEnd 4 4 n n 0
  let s := pureLoop 2 2 n (step2 3 2 4 2 (rgbNeonCore2 D) w px) n j s
  let j := loopEnd 2 2 n n j
  pureLoop 0 1 n (step2 3 1 2 1 (rgbNeonCore1 D) w px) n j s

theorem rgbNeon_pure {D : Bool} {src : List ℕ} {offs : List ℕ} {w : List ℤ} {b : Bounds}
    (hp : HPre 3 src offs w b) :
    rgbNeon D src offs w b = some (offs.map fun o => (List.range 3).map fun c =>
      narrow32 D ((rgbNeonAcc D w b.size (winb 3 b fun i => src.getD (o + i) 0)).getD c 0)) := by
  unfold rgbNeon
  dsimp only
  rw [rowsLoop_pure (f := rgbNeon4 D src w b) (g := fun o => step2 3 4 8 4 (rgbNeonCore4 D) w (winb 3 b fun i => src.getD (o + i) 0))
    fun jx hj o ho s => pixels2_pure (by norm_num) (by norm_num) hp ho (by omega) s]
  simp only [Option.bind_eq_bind, Option.bind_some]
  rw [rowsLoop_pure (f := rgbNeon2 D src w b) (g := fun o => step2 3 2 4 2 (rgbNeonCore2 D) w (winb 3 b fun i => src.getD (o + i) 0))
    fun jx hj o ho s => pixels2_pure (by norm_num) (by norm_num) hp ho (by omega) s]
  simp only [Option.bind_some]
  rw [rowsLoop_pure (f := rgbNeon1 D src w b) (g := fun o => step2 3 1 2 1 (rgbNeonCore1 D) w (winb 3 b fun i => src.getD (o + i) 0))
    fun jx hj o ho s => pixels2_pure (by norm_num) (by norm_num) hp ho (by omega) s]
  simp only [Option.bind_some, List.map_map]
  rfl

/-- Final accumulator of `planeNeon`. -/
def planeNeonAcc (D : Bool) (w : List ℤ) (n : ℕ) (px : ℕ → ℕ → ℕ) : List ℤ :=
  let s := [neonRnd D, 0, 0, 0]
  let s := pureLoop 16 16 n (step1 1 16 16 (planeNeonCore16 D) w px) n 0 s
  let j := loopEnd 16 16 n n 0
  let s := pureLoop 8 8 n (step1 1 8 8 (planeNeonCore8 D) w px) n j s
  let j := loopEnd 8 8 n n j
  let s := pureLoop 4 4 n (step1 1 4 4 planeNeonCore4 w px) n j s
  let j := loopEnd 4 4 n n j
  pureLoop 0 1 n (step1 1 1 1 planeNeonCore1 w px) n j s

theorem planeNeon_pure {D : Bool} {src : List ℕ} {offs : List ℕ} {w : List ℤ} {b : Bounds}
    (hp : HPre 1 src offs w b) :
    planeNeon D src offs w b = some (offs.map fun o => (List.range 1).map fun _ =>
      planeNarrow32 D (planeNeonAcc D w b.size (winb 1 b fun i => src.getD (o + i) 0))) := by
  unfold planeNeon
  dsimp only
  rw [rowsLoop_pure (f := planeNeon16 D src w b) (g := fun o => step1 1 16 16 (planeNeonCore16 D) w (winb 1 b fun i => src.getD (o + i) 0))
    fun jx hj o ho s => pixels1_pure (by norm_num) (by norm_num) hp ho (by omega) s]
  simp only [Option.bind_eq_bind, Option.bind_some]
  rw [rowsLoop_pure (f := planeNeon8 D src w b) (g := fun o => step1 1 8 8 (planeNeonCore8 D) w (winb 1 b fun i => src.getD (o + i) 0))
    fun jx hj o ho s => pixels1_pure (by norm_num) (by norm_num) hp ho (by omega) s]
  simp only [Option.bind_some]
  rw [rowsLoop_pure (f := planeNeon4 src w b) (g := fun o => step1 1 4 4 planeNeonCore4 w (winb 1 b fun i => src.getD (o + i) 0))
    fun jx hj o ho s => pixels1_pure (by norm_num) (by norm_num) hp ho (by omega) s]
  simp only [Option.bind_some]
  rw [rowsLoop_pure (f := planeNeon1 src w b) (g := fun o => step1 1 1 1 planeNeonCore1 w (winb 1 b fun i => src.getD (o + i) 0))
    fun jx hj o ho s => pixels1_pure (by norm_num) (by norm_num) hp ho (by omega) s]
  simp only [Option.bind_some, List.map_map]
  rfl

/-- Final accumulator of `rgbaRdm`. -/
def rgbaRdmAcc (w : List ℤ) (n : ℕ) (px : ℕ → ℕ → ℕ) : List ℤ :=
  let s := List.replicate 4 RDM_ROUNDING ++ List.replicate 4 0
  let s := pureLoop 8 8 n (step2 4 8 16 16 rgbaRdmCore8 w px) n 0 s
  let j := loopEnd 8 8 n n 0
  let s := pureLoop 4 4 n (step1 4 4 16 rgbaRdmCore4 w px) n j s
  let j := loopEnd 4 4 n n j
  let s := pureLoop 2 2 n (step1 4 2 8 rgbaRdmCore2 w px) n j s
  let j := loopEnd 2 2 n n j
  let s := vadd16 (s.take 4) (s.drop 4)
  pureLoop 0 1 n (step1 4 1 4 rgbaRdmCore1 w px) n j s

theorem rgbaRdm_pure {src : List ℕ} {offs : List ℕ} {w : List ℤ} {b : Bounds}
    (hp : HPre 4 src offs w b) :
    rgbaRdm src offs w b = some (offs.map fun o => (List.range 4).map fun c =>
      narrow16 ((rgbaRdmAcc w b.size (winb 4 b fun i => src.getD (o + i) 0)).getD c 0)) := by
  unfold rgbaRdm
  dsimp only
  rw [rowsLoop_pure (f := rgbaRdm8 src w b) (g := fun o => step2 4 8 16 16 rgbaRdmCore8 w (winb 4 b fun i => src.getD (o + i) 0))
    fun jx hj o ho s => pixels2_pure (by norm_num) (by norm_num) hp ho (by omega) s]
  simp only [Option.bind_eq_bind, Option.bind_some]
  rw [rowsLoop_pure (f := rgbaRdm4 src w b) (g := fun o => step1 4 4 16 rgbaRdmCore4 w (winb 4 b fun i => src.getD (o + i) 0))
    fun jx hj o ho s => pixels1_pure (by norm_num) (by norm_num) hp ho (by omega) s]
  simp only [Option.bind_some]
  rw [rowsLoop_pure (f := rgbaRdm2 src w b) (g := fun o => step1 4 2 8 rgbaRdmCore2 w (winb 4 b fun i => src.getD (o + i) 0))
    fun jx hj o ho s => pixels1_pure (by norm_num) (by norm_num) hp ho (by omega) s]
  simp only [Option.bind_some, List.map_map]
  rw [rowsLoop_pure (f := rgbaRdm1 src w b) (g := fun o => step1 4 1 4 rgbaRdmCore1 w (winb 4 b fun i => src.getD (o + i) 0))
    fun jx hj o ho s => pixels1_pure (by norm_num) (by norm_num) hp ho (by omega) s]
  simp only [Option.bind_some, List.map_map]
  rfl

/-- Final accumulator of `rgbRdm`. -/
def rgbRdmAcc (w : List ℤ) (n : ℕ) (px : ℕ → ℕ → ℕ) : List ℤ :=
  let s := [RDM_ROUNDING, RDM_ROUNDING, RDM_ROUNDING, 0, 0, 0, 0, 0]
  let s := pureLoop 4 4 n (step2 3 4 8 4 rgbRdmCore4 w px) n 0 s
  let j := loopEnd 4 4 n n 0
  let s := pureLoop 2 2 n (step2 3 2 4 2 rgbRdmCore2 w px) n j s
  let j := loopEnd 2 2 n n j
  pureLoop 0 1 n (step2 3 1 2 1 rgbRdmCore1 w px) n j s

theorem rgbRdm_pure {src : List ℕ} {offs : List ℕ} {w : List ℤ} {b : Bounds}
    (hp : HPre 3 src offs w b) :
    rgbRdm src offs w b = some (offs.map fun o => (List.range 3).map fun c =>
      narrow16 ((vadd16 ((rgbRdmAcc w b.size (winb 3 b fun i => src.getD (o + i) 0)).take 4)
        ((rgbRdmAcc w b.size (winb 3 b fun i => src.getD (o + i) 0)).drop 4)).getD c 0)) := by
  unfold rgbRdm
  dsimp only
  rw [rowsLoop_pure (f := rgbRdm4 src w b) (g := fun o => step2 3 4 8 4 rgbRdmCore4 w (winb 3 b fun i => src.getD (o + i) 0))
    fun jx hj o ho s => pixels2_pure (by norm_num) (by norm_num) hp ho (by omega) s]
  simp only [Option.bind_eq_bind, Option.bind_some]
  rw [rowsLoop_pure (f := rgbRdm2 src w b) (g := fun o => step2 3 2 4 2 rgbRdmCore2 w (winb 3 b fun i => src.getD (o + i) 0))
    fun jx hj o ho s => pixels2_pure (by norm_num) (by norm_num) hp ho (by omega) s]
  simp only [Option.bind_some]
  rw [rowsLoop_pure (f := rgbRdm1 src w b) (g := fun o => step2 3 1 2 1 rgbRdmCore1 w (winb 3 b fun i => src.getD (o + i) 0))
    fun jx hj o ho s => pixels2_pure (by norm_num) (by norm_num) hp ho (by omega) s]
  simp only [Option.bind_some, List.map_map]
  rfl

/-- Final accumulator of `planeRdm`. -/
def planeRdmAcc (w : List ℤ) (n : ℕ) (px : ℕ → ℕ → ℕ) : List ℤ :=
  let s := [RDM_ROUNDING, 0, 0, 0, 0, 0, 0, 0]
  let s := pureLoop 32 32 n (step2 1 32 16 16 planeRdmCore32 w px) n 0 s
  let j := loopEnd 32 32 n n 0
  let s := pureLoop 16 16 n (step1 1 16 16 planeRdmCore16 w px) n j s
  let j := loopEnd 16 16 n n j
  let s := pureLoop 8 8 n (step1 1 8 8 planeRdmCore8 w px) n j s
  let j := loopEnd 8 8 n n j
  let s := pureLoop 4 4 n (step1 1 4 4 planeRdmCore4 w px) n j s
  let j := loopEnd 4 4 n n j
  pureLoop 0 1 n (step1 1 1 1 planeRdmCore1 w px) n j s

theorem planeRdm_pure {src : List ℕ} {offs : List ℕ} {w : List ℤ} {b : Bounds}
    (hp : HPre 1 src offs w b) :
    planeRdm src offs w b = some (offs.map fun o => (List.range 1).map fun _ =>
      planeNarrow16 (planeRdmAcc w b.size (winb 1 b fun i => src.getD (o + i) 0))) := by
  unfold planeRdm
  dsimp only
  rw [rowsLoop_pure (f := planeRdm32 src w b) (g := fun o => step2 1 32 16 16 planeRdmCore32 w (winb 1 b fun i => src.getD (o + i) 0))
    fun jx hj o ho s => pixels2_pure (by norm_num) (by norm_num) hp ho (by omega) s]
  simp only [Option.bind_eq_bind, Option.bind_some]
  rw [rowsLoop_pure (f := planeRdm16 src w b) (g := fun o => step1 1 16 16 planeRdmCore16 w (winb 1 b fun i => src.getD (o + i) 0))
    fun jx hj o ho s => pixels1_pure (by norm_num) (by norm_num) hp ho (by omega) s]
  simp only [Option.bind_some]
  rw [rowsLoop_pure (f := planeRdm8 src w b) (g := fun o => step1 1 8 8 planeRdmCore8 w (winb 1 b fun i => src.getD (o + i) 0))
    fun jx hj o ho s => pixels1_pure (by norm_num) (by norm_num) hp ho (by omega) s]
  simp only [Option.bind_some]
  rw [rowsLoop_pure (f := planeRdm4 src w b) (g := fun o => step1 1 4 4 planeRdmCore4 w (winb 1 b fun i => src.getD (o + i) 0))
    fun jx hj o ho s => pixels1_pure (by norm_num) (by norm_num) hp ho (by omega) s]
  simp only [Option.bind_some]
  rw [rowsLoop_pure (f := planeRdm1 src w b) (g := fun o => step1 1 1 1 planeRdmCore1 w (winb 1 b fun i => src.getD (o + i) 0))
    fun jx hj o ho s => pixels1_pure (by norm_num) (by norm_num) hp ho (by omega) s]
  simp only [Option.bind_some, List.map_map]
  rfl

/-- Final accumulator of `cbcrRdm`. -/
def cbcrRdmAcc (w : List ℤ) (n : ℕ) (px : ℕ → ℕ → ℕ) : List ℤ :=
  let s := [RDM_ROUNDING, RDM_ROUNDING, 0, 0, 0, 0, 0, 0]
  let s := pureLoop 8 8 n (step1 2 8 16 cbcrRdmCore8 w px) n 0 s
  let j := loopEnd 8 8 n n 0
  let s := pureLoop 4 4 n (step1 2 4 8 cbcrRdmCore4 w px) n j s
  let j := loopEnd 4 4 n n j
  pureLoop 0 1 n (step1 2 1 2 cbcrRdmCore1 w px) n j s

theorem cbcrRdm_pure {src : List ℕ} {offs : List ℕ} {w : List ℤ} {b : Bounds}
    (hp : HPre 2 src offs w b) :
    cbcrRdm src offs w b = some (offs.map fun o =>
      cbcrRdmFinish (cbcrRdmAcc w b.size (winb 2 b fun i => src.getD (o + i) 0))) := by
  unfold cbcrRdm
  dsimp only
  rw [rowsLoop_pure (f := cbcrRdm8 src w b) (g := fun o => step1 2 8 16 cbcrRdmCore8 w (winb 2 b fun i => src.getD (o + i) 0))
    fun jx hj o ho s => pixels1_pure (by norm_num) (by norm_num) hp ho (by omega) s]
  simp only [Option.bind_eq_bind, Option.bind_some]
  rw [rowsLoop_pure (f := cbcrRdm4 src w b) (g := fun o => step1 2 4 8 cbcrRdmCore4 w (winb 2 b fun i => src.getD (o + i) 0))
    fun jx hj o ho s => pixels1_pure (by norm_num) (by norm_num) hp ho (by omega) s]
  simp only [Option.bind_some]
  rw [rowsLoop_pure (f := cbcrRdm1 src w b) (g := fun o => step1 2 1 2 cbcrRdmCore1 w (winb 2 b fun i => src.getD (o + i) 0))
    fun jx hj o ho s => pixels1_pure (by norm_num) (by norm_num) hp ho (by omega) s]
  simp only [Option.bind_some, List.map_map]
  rfl

/-- Value of channel `c` from the final accumulators, by handler. -/
def NeonH.row (N : ℕ) (k : NeonH) (w : List ℤ) (b : Bounds) (f : ℕ → ℕ) (c : ℕ) : ℕ :=
  match k, N with
  | .scalar, _ => 0
  | .full D, 1 => planeNarrow32 D (planeNeonAcc D w b.size (winb 1 b f))
  | .full D, 3 => narrow32 D ((rgbNeonAcc D w b.size (winb 3 b f)).getD c 0)
  | .full D, _ => narrow32 D ((rgbaNeonAcc D w b.size (winb N b f)).getD c 0)
  | .rdm, 1 => planeNarrow16 (planeRdmAcc w b.size (winb 1 b f))
  | .rdm, 2 => (cbcrRdmFinish (cbcrRdmAcc w b.size (winb 2 b f))).getD c 0
  | .rdm, 3 => narrow16 ((vadd16 ((rgbRdmAcc w b.size (winb 3 b f)).take 4)
      ((rgbRdmAcc w b.size (winb 3 b f)).drop 4)).getD c 0)
  | .rdm, _ => narrow16 ((rgbaRdmAcc w b.size (winb N b f)).getD c 0)

theorem NeonH.row_loc (N : ℕ) (k : NeonH) (w : List ℤ) (b : Bounds) (f g : ℕ → ℕ) (c : ℕ)
    (h : ∀ i, i < (b.start + b.size) * N → f i = g i) : k.row N w b f c = k.row N w b g c := by
  unfold NeonH.row
  split <;> first | rfl | rw [winb_congr h]

theorem NeonH.pixels_spec {N : ℕ} (hN : 1 ≤ N ∧ N ≤ 4) {k : NeonH}
    {h : List ℕ → List ℕ → List ℤ → Bounds → Option (List (List ℕ))} (hk : k.pixels N = some h)
    (s : List ℕ) (offs : List ℕ) (w : List ℤ) (b : Bounds) (hp : HPre N s offs w b) :
    h s offs w b = some (offs.map fun o => (List.range N).map fun c =>
      k.row N w b (fun i => s.getD (o + i) 0) c) := by
  obtain ⟨h1, h4⟩ := hN
  cases k with
  | scalar => exact absurd hk (by simp [NeonH.pixels])
  | full D =>
    interval_cases N <;> simp only [NeonH.pixels, Option.some.injEq, reduceCtorEq] at hk <;> subst hk
    · exact planeNeon_pure hp
    · exact rgbNeon_pure hp
    · exact rgbaNeon_pure hp
  | rdm =>
    interval_cases N <;> simp only [NeonH.pixels, Option.some.injEq] at hk <;> subst hk
    · exact planeRdm_pure hp
    · rw [cbcrRdm_pure hp]
      rfl
    · exact rgbRdm_pure hp
    · exact rgbaRdm_pure hp

end PicScale
