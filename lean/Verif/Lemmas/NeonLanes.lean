import Verif.Lemmas.NeonRows
import Verif.SpecNeon

/-! Sums of accumulator lanes of the NEON handlers, when nothing overflows. -/

namespace PicScale

open Finset Spec

/-- A tap that adds `term p w` to the accumulator as long as twice the accumulator plus `cost w` is at
most `M`. -/
structure TapOK (tap : ℤ → ℕ → ℤ → ℤ) (term : ℕ → ℤ → ℤ) (cost : ℤ → ℤ) (M : ℤ) : Prop where
  nonneg : ∀ w, 0 ≤ cost w
  add : ∀ a p w, p ≤ 255 → (-32768 ≤ w ∧ w ≤ 32767) → 2 * |a| + cost w ≤ M → tap a p w = a + term p w
  bound : ∀ p w, p ≤ 255 → (-32768 ≤ w ∧ w ≤ 32767) → 2 * |term p w| ≤ cost w

/-- The lanes `I` of `s` add up to `S`, their absolute values to at most `B / 2` (if that is at most `M / 2`). -/
def LaneSum (M : ℤ) (I : List ℕ) (n : ℕ) (s : List ℤ) (S B : ℤ) : Prop :=
  s.length = n ∧ (B ≤ M → (I.map fun i => s.getD i 0).sum = S ∧ 2 * (I.map fun i => |s.getD i 0|).sum ≤ B)

theorem LaneSum.cast {M : ℤ} {I : List ℕ} {n : ℕ} {s : List ℤ} {S B S' B' : ℤ} (h : LaneSum M I n s S B)
    (hS : S = S') (hB : B = B') : LaneSum M I n s S' B' := by
  subst hS; subst hB; exact h

theorem sum_nonneg_list {I : List ℕ} {f : ℕ → ℤ} (h : ∀ i, 0 ≤ f i) : 0 ≤ (I.map f).sum := by
  induction I with
  | nil => simp
  | cons i I ih => simp only [List.map_cons, List.sum_cons]; have := h i; omega

theorem taps_sum {tap : ℤ → ℕ → ℤ → ℤ} {term : ℕ → ℤ → ℤ} {cost : ℤ → ℤ} {M : ℤ} (T : TapOK tap term cost M)
    {I : List ℕ} {a : ℕ → ℤ} {p : ℕ → ℕ} {w : ℕ → ℤ} (hp : ∀ i ∈ I, p i ≤ 255)
    (hw : ∀ i ∈ I, -32768 ≤ w i ∧ w i ≤ 32767)
    (hM : 2 * (I.map fun i => |a i|).sum + (I.map fun i => cost (w i)).sum ≤ M) :
    (I.map fun i => tap (a i) (p i) (w i)).sum = (I.map a).sum + (I.map fun i => term (p i) (w i)).sum ∧
      2 * (I.map fun i => |tap (a i) (p i) (w i)|).sum ≤
        2 * (I.map fun i => |a i|).sum + (I.map fun i => cost (w i)).sum := by
  induction I with
  | nil => simp
  | cons i I ih =>
    simp only [List.map_cons, List.sum_cons] at hM ⊢
    have n1 := sum_nonneg_list (I := I) fun i => abs_nonneg (a i)
    have n2 := sum_nonneg_list (I := I) fun i => T.nonneg (w i)
    have n3 := T.nonneg (w i)
    have n4 := abs_nonneg (a i)
    obtain ⟨h1, h2⟩ := ih (fun i hi => hp i (by simp [hi])) (fun i hi => hw i (by simp [hi])) (by omega)
    have h3 := T.add (a i) (p i) (w i) (hp i (by simp)) (hw i (by simp)) (by omega)
    have h4 := T.bound (p i) (w i) (hp i (by simp)) (hw i (by simp))
    have h5 := abs_add_le (a i) (term (p i) (w i))
    rw [h1, h3]
    constructor
    · ring
    · omega

theorem vtap_length (tap : ℤ → ℕ → ℤ → ℤ) : ∀ (s : List ℤ) (ps : List ℕ) (ws : List ℤ) (n : ℕ),
    s.length = n → ps.length = n → ws.length = n → (vtap tap s ps ws).length = n
  | [], _, _, n, h, _, _ => by unfold vtap; exact h
  | a :: s, [], ws, n, h, h2, _ => by rw [List.length_cons] at h; rw [List.length_nil] at h2; omega
  | a :: s, p :: ps, [], n, h, _, h3 => by rw [List.length_cons] at h; rw [List.length_nil] at h3; omega
  | a :: s, p :: ps, w :: ws, n, h, h2, h3 => by
    unfold vtap
    rw [List.length_cons] at h h2 h3 ⊢
    rw [vtap_length tap s ps ws (n - 1) (by omega) (by omega) (by omega)]
    omega

theorem vtap_getD (tap : ℤ → ℕ → ℤ → ℤ) : ∀ (s : List ℤ) (ps : List ℕ) (ws : List ℤ) (i : ℕ),
    i < s.length → i < ps.length → i < ws.length →
    (vtap tap s ps ws).getD i 0 = tap (s.getD i 0) (ps.getD i 0) (ws.getD i 0)
  | [], _, _, i, h, _, _ => by simp at h
  | a :: s, [], ws, i, _, h, _ => by simp at h
  | a :: s, p :: ps, [], i, _, _, h => by simp at h
  | a :: s, p :: ps, w :: ws, 0, _, _, _ => by simp [vtap]
  | a :: s, p :: ps, w :: ws, i + 1, h, h2, h3 => by
    unfold vtap
    simp only [List.getD_cons_succ]
    exact vtap_getD tap s ps ws i (by simpa using h) (by simpa using h2) (by simpa using h3)

theorem vtapLane_getD (tap : ℤ → ℕ → ℤ → ℤ) (s : List ℤ) (ps : List ℕ) (w : ℤ) (i : ℕ)
    (h : i < s.length) (h2 : i < ps.length) :
    (vtapLane tap s ps w).getD i 0 = tap (s.getD i 0) (ps.getD i 0) w := by
  unfold vtapLane
  simp [List.getD_eq_getElem?_getD, List.getElem?_zipWith, List.getElem?_eq_getElem h,
    List.getElem?_eq_getElem h2]

theorem LaneSum.vtap {tap : ℤ → ℕ → ℤ → ℤ} {term : ℕ → ℤ → ℤ} {cost : ℤ → ℤ} {M : ℤ} (T : TapOK tap term cost M)
    {I : List ℕ} {n : ℕ} {s : List ℤ} {S B : ℤ} (h : LaneSum M I n s S B) {ps : List ℕ} {ws : List ℤ}
    (hI : ∀ i ∈ I, i < n) (hps : ps.length = n) (hws : ws.length = n)
    (hp : ∀ i ∈ I, ps.getD i 0 ≤ 255) (hw : ∀ i ∈ I, -32768 ≤ ws.getD i 0 ∧ ws.getD i 0 ≤ 32767) :
    LaneSum M I n (PicScale.vtap tap s ps ws) (S + (I.map fun i => term (ps.getD i 0) (ws.getD i 0)).sum)
      (B + (I.map fun i => cost (ws.getD i 0)).sum) := by
  obtain ⟨h1, h2⟩ := h
  refine ⟨vtap_length tap s ps ws n h1 hps hws, fun hM => ?_⟩
  have n2 := sum_nonneg_list (I := I) fun i => T.nonneg (ws.getD i 0)
  obtain ⟨e1, e2⟩ := h2 (by omega)
  obtain ⟨t1, t2⟩ := taps_sum T (a := fun i => s.getD i 0) hp hw (by omega)
  have ea : (I.map fun i => (PicScale.vtap tap s ps ws).getD i 0) =
      I.map fun i => tap (s.getD i 0) (ps.getD i 0) (ws.getD i 0) := by
    apply List.map_congr_left
    intro i hi
    have := hI i hi
    exact vtap_getD tap s ps ws i (by omega) (by omega) (by omega)
  have eb : (I.map fun i => |(PicScale.vtap tap s ps ws).getD i 0|) =
      I.map fun i => |tap (s.getD i 0) (ps.getD i 0) (ws.getD i 0)| := by
    apply List.map_congr_left
    intro i hi
    have := hI i hi
    rw [vtap_getD tap s ps ws i (by omega) (by omega) (by omega)]
  rw [ea, eb, t1, e1]
  exact ⟨rfl, by omega⟩

theorem LaneSum.vtapLane {tap : ℤ → ℕ → ℤ → ℤ} {term : ℕ → ℤ → ℤ} {cost : ℤ → ℤ} {M : ℤ} (T : TapOK tap term cost M)
    {I : List ℕ} {n : ℕ} {s : List ℤ} {S B : ℤ} (h : LaneSum M I n s S B) {ps : List ℕ} {w : ℤ}
    (hI : ∀ i ∈ I, i < n) (hps : ps.length = n)
    (hp : ∀ i ∈ I, ps.getD i 0 ≤ 255) (hw : -32768 ≤ w ∧ w ≤ 32767) :
    LaneSum M I n (PicScale.vtapLane tap s ps w) (S + (I.map fun i => term (ps.getD i 0) w).sum)
      (B + (I.map fun _ => cost w).sum) := by
  obtain ⟨h1, h2⟩ := h
  refine ⟨by unfold PicScale.vtapLane; rw [List.length_zipWith]; omega, fun hM => ?_⟩
  have n2 := sum_nonneg_list (I := I) fun _ => T.nonneg w
  obtain ⟨e1, e2⟩ := h2 (by omega)
  obtain ⟨t1, t2⟩ := taps_sum T (a := fun i => s.getD i 0) hp (w := fun _ => w) (fun _ _ => hw) (by omega)
  have ea : (I.map fun i => (PicScale.vtapLane tap s ps w).getD i 0) =
      I.map fun i => tap (s.getD i 0) (ps.getD i 0) w := by
    apply List.map_congr_left
    intro i hi
    have := hI i hi
    exact vtapLane_getD tap s ps w i (by omega) (by omega)
  have eb : (I.map fun i => |(PicScale.vtapLane tap s ps w).getD i 0|) =
      I.map fun i => |tap (s.getD i 0) (ps.getD i 0) w| := by
    apply List.map_congr_left
    intro i hi
    have := hI i hi
    rw [vtapLane_getD tap s ps w i (by omega) (by omega)]
  rw [ea, eb, t1, e1]
  exact ⟨rfl, by omega⟩

/-! ### The two kinds of taps -/

/-- Factor of the doubling instructions. -/
def dbl (D : Bool) : ℤ := if D then 2 else 1

theorem sat32_self {v : ℤ} (h : |v| ≤ 2147483647) : sat32 v = v := by
  rw [abs_le] at h
  unfold sat32
  omega

theorem tapX_ok (D : Bool) : TapOK (tapX D) (fun p w => dbl D * (w * p)) (fun w => 2 * dbl D * 255 * |w|) 4294967295 := by
  have hb : ∀ (p : ℕ) (w : ℤ), p ≤ 255 → |w * (p : ℤ)| ≤ 255 * |w| := by
    intro p w hp
    rw [abs_mul, Nat.abs_cast, mul_comm]
    exact mul_le_mul_of_nonneg_right (by exact_mod_cast hp) (abs_nonneg _)
  refine ⟨fun w => ?_, fun a p w hp hw h => ?_, fun p w hp hw => ?_⟩
  · have := abs_nonneg w
    cases D <;> simp [dbl]
  · have h1 := hb p w hp
    have h2 := abs_nonneg a
    have h3 := abs_add_le a (w * p)
    have h5 := abs_nonneg w
    have e : (p : ℤ) * w = w * p := mul_comm _ _
    cases D
    · simp only [dbl, Bool.false_eq_true, if_false] at h ⊢
      show i32 (a + p * w) = _
      rw [e, one_mul]
      obtain ⟨v, hv⟩ : ∃ v, a + w * (p : ℤ) = v := ⟨_, rfl⟩
      rw [hv] at h3 ⊢
      have : |v| ≤ 2147483647 := by omega
      rw [abs_le] at this
      exact i32_eq_self (by omega) (by omega)
    · simp only [dbl, if_true] at h ⊢
      show sat32 (a + sat32 (2 * p * w)) = _
      rw [mul_assoc, e]
      have h4 := abs_add_le a (2 * (w * p))
      have h6 : |2 * (w * (p : ℤ))| = 2 * |w * (p : ℤ)| := by rw [abs_mul]; rfl
      rw [sat32_self (v := 2 * (w * p)) (by omega), sat32_self (by omega)]
  · have h1 := hb p w hp
    have h0 : 0 ≤ dbl D := by cases D <;> simp [dbl]
    have : |dbl D * (w * p)| = dbl D * |w * (p : ℤ)| := by rw [abs_mul, abs_of_nonneg h0]
    rw [this]
    nlinarith

/-- Half bits a tap of the 16-bit handlers can add. -/
def rdmCost (w : ℤ) : ℤ := if w = 0 then 0 else |w| + 1

theorem lowTerm_zero (p : ℕ) : lowTerm p 0 = 0 := by
  unfold lowTerm
  norm_num

theorem shift16_add (a v : ℤ) : (a * 65536 + v) >>> 16 = a + v >>> 16 := by
  rw [Int.shiftRight_eq_div_pow, Int.shiftRight_eq_div_pow]
  norm_num
  omega

theorem tapR_eq (a : ℤ) (p : ℕ) (w : ℤ) : tapR a p w = sat16 (a + lowTerm p w) := by
  unfold tapR vqrdmlah1 expand14
  rw [add_assoc, shift16_add]
  congr 2
  unfold lowTerm
  have e : (p * 256 + p) >>> 2 = 257 * p / 4 := by rw [Nat.shiftRight_eq_div_pow]; omega
  rw [e]
  obtain ⟨q, hq⟩ : ∃ q : ℕ, 257 * p / 4 = q := ⟨_, rfl⟩
  rw [hq, shift_floor]
  congr 1
  push_cast
  ring

theorem tapR_ok : TapOK tapR lowTerm rdmCost 65535 := by
  have hb : ∀ (p : ℕ) (w : ℤ), p ≤ 255 → (-32768 ≤ w ∧ w ≤ 32767) → 2 * |lowTerm p w| ≤ rdmCost w := by
    intro p w hp hw
    unfold rdmCost
    split_ifs with h
    · subst h; rw [lowTerm_zero]; simp
    · have := (lpTerm_spec hp hw).2
      rwa [abs_mul, abs_two] at this
  refine ⟨fun w => ?_, fun a p w hp hw h => ?_, hb⟩
  · unfold rdmCost
    have := abs_nonneg w
    split_ifs <;> omega
  · rw [tapR_eq]
    have := hb p w hp hw
    have h3 := abs_add_le a (lowTerm p w)
    have : |a + lowTerm p w| ≤ 32767 := by omega
    rw [abs_le] at this
    unfold sat16
    omega

theorem rdmCost_le (w : ℤ) : rdmCost w ≤ |w| + 1 := by
  unfold rdmCost
  have := abs_nonneg w
  split_ifs <;> omega

end PicScale
