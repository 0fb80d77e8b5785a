import Mathlib.Tactic.Linarith
import Mathlib.Tactic.Positivity
import Mathlib.Tactic.NormNum
import Mathlib.Tactic.Ring
import Verif.Model.Weights
import Verif.Lemmas.F32
import Verif.Lemmas.Slices
import Verif.SpecTable

namespace PicScale

/-- What the window proofs need from the rounding: monotone, exact on half integers up to `2^23`
and on integers up to `2^24`. -/
structure RoundOK (ρ : ℚ → ℚ) : Prop where
  mono : ∀ {a b}, a ≤ b → ρ a ≤ ρ b
  half : ∀ z : ℤ, |z| ≤ 2 ^ 24 → ρ ((z : ℚ) / 2) = z / 2
  int : ∀ z : ℤ, |z| ≤ 2 ^ 24 → ρ (z : ℚ) = z

theorem RoundOK.rnd : RoundOK F32.rnd :=
  ⟨F32.rnd_mono, fun _ h => (F32.rep_half h).rnd, fun _ h => (F32.rep_int h).rnd⟩
theorem RoundOK.exact : RoundOK id := ⟨fun h => h, fun _ _ => rfl, fun _ _ => rfl⟩

variable {ρ : ℚ → ℚ}

theorem RoundOK.nat (h : RoundOK ρ) {n : ℕ} (hn : n ≤ 2 ^ 24) : ρ n = n := by
  have := h.int n (by rw [abs_of_nonneg (by omega)]; omega)
  exact_mod_cast this

theorem RoundOK.zero (h : RoundOK ρ) : ρ 0 = 0 := by
  have := h.nat (n := 0) (by omega)
  simpa using this

theorem RoundOK.one (h : RoundOK ρ) : ρ 1 = 1 := by
  have := h.nat (n := 1) (by omega)
  simpa using this

theorem RoundOK.nonneg (h : RoundOK ρ) {q : ℚ} (hq : 0 ≤ q) : 0 ≤ ρ q := by
  have := h.mono hq
  rwa [h.zero] at this

theorem RoundOK.one_le (h : RoundOK ρ) {q : ℚ} (hq : 1 ≤ q) : 1 ≤ ρ q := by
  have := h.mono hq
  rwa [h.one] at this

/-- The heart of the window argument: a window around a centre in `[0, n]` with radius at least 1/2. -/
theorem window_core (h : RoundOK ρ) {n ks : ℕ} {c r K : ℚ} (hn1 : 1 ≤ n) (hn : n ≤ 2 ^ 23)
    (hc0 : 0 ≤ c) (hcn : c ≤ n) (hr : 1 / 2 ≤ r) (hK : K = ρ ks) (hks : 1 ≤ ks) :
    let start := F32.toUsize (max ⌊ρ (c - r)⌋ 0)
    let fin := F32.toUsize ⌊min (min (⌈ρ (c + r)⌉ : ℚ) (ρ (ρ (start : ℕ) + K))) (ρ n)⌋
    start < fin ∧ fin ≤ n ∧ fin - start ≤ ks := by
  intro start fin
  have hρn : ρ n = n := h.nat (by omega)
  have hstart : start ≤ n - 1 := by
    have h1 : ρ (c - r) ≤ (n : ℚ) - 1 / 2 := by
      have h2 := h.mono (show c - r ≤ ((2 * n - 1 : ℤ) : ℚ) / 2 by push_cast; linarith)
      rw [h.half _ (by rw [abs_of_nonneg (by omega)]; omega)] at h2
      push_cast at h2; linarith
    have h2 : ⌊ρ (c - r)⌋ < n := by
      rw [Int.floor_lt]; push_cast; linarith
    show F32.toUsize (max ⌊ρ (c - r)⌋ 0) ≤ n - 1
    unfold F32.toUsize; omega
  have hρs : ρ (start : ℕ) = start := h.nat (by omega)
  have hK1 : 1 ≤ K := by rw [hK]; exact h.one_le (by exact_mod_cast hks)
  have hs1 : ρ ((start : ℚ) + K) ≥ start + 1 := by
    have := h.mono (show (((start + 1 : ℕ) : ℕ) : ℚ) ≤ start + K by push_cast; linarith)
    rw [h.nat (by omega)] at this
    push_cast at this; exact this
  have hgt : (start : ℚ) < ρ (c + r) := by
    rcases Nat.eq_zero_or_pos start with h0 | h0
    · have h1 := h.half 1 (by norm_num)
      have h2 := h.mono (show ((1 : ℤ) : ℚ) / 2 ≤ c + r by push_cast; linarith)
      rw [h1] at h2
      rw [h0]; push_cast at h2 ⊢; linarith
    · have hfl : (start : ℤ) ≤ ⌊ρ (c - r)⌋ := by
        have : (start : ℤ) = max ⌊ρ (c - r)⌋ 0 := by
          show ((F32.toUsize (max ⌊ρ (c - r)⌋ 0) : ℕ) : ℤ) = _
          unfold F32.toUsize; omega
        omega
      have hge : (start : ℚ) ≤ ρ (c - r) := by
        have := Int.le_floor.1 hfl
        exact_mod_cast this
      rcases le_or_gt (c - r) ((start : ℚ) - 1 / 2) with hlo | hlo
      · exfalso
        have h2 := h.mono (show c - r ≤ ((2 * start - 1 : ℤ) : ℚ) / 2 by push_cast; linarith)
        rw [h.half _ (by rw [abs_of_nonneg (by omega)]; omega)] at h2
        push_cast at h2; linarith
      · have h2 := h.mono (show ((2 * start + 1 : ℤ) : ℚ) / 2 ≤ c + r by push_cast; linarith)
        rw [h.half _ (by rw [abs_of_nonneg (by omega)]; omega)] at h2
        push_cast at h2; linarith
  have hceil : (start : ℚ) + 1 ≤ (⌈ρ (c + r)⌉ : ℚ) := by
    have : (start : ℤ) < ⌈ρ (c + r)⌉ := by rw [Int.lt_ceil]; exact_mod_cast hgt
    exact_mod_cast this
  set m : ℚ := min (min (⌈ρ (c + r)⌉ : ℚ) (ρ (ρ (start : ℕ) + K))) (ρ n) with hm
  have hmlo : (start : ℚ) + 1 ≤ m := by
    rw [hm, hρs, hρn]
    refine le_min (le_min hceil hs1) ?_
    have : start + 1 ≤ n := by omega
    exact_mod_cast this
  have hmn : m ≤ n := by rw [hm, hρn]; exact min_le_right _ _
  have hfin : (fin : ℤ) = ⌊m⌋ := by
    show ((F32.toUsize ⌊m⌋ : ℕ) : ℤ) = _
    have : (0 : ℤ) ≤ ⌊m⌋ := Int.floor_nonneg.2 (le_trans (by positivity) hmlo)
    unfold F32.toUsize; omega
  have hfl : (start : ℤ) + 1 ≤ ⌊m⌋ := by rw [Int.le_floor]; push_cast; exact hmlo
  have hfn : ⌊m⌋ ≤ (n : ℤ) := by
    have : ⌊m⌋ < (n : ℤ) + 1 := by rw [Int.floor_lt]; push_cast; linarith
    omega
  refine ⟨by omega, by omega, ?_⟩
  rcases le_or_gt ks (2 ^ 23) with hk | hk
  · have hms : m ≤ start + ks := by
      have e : ρ ((start : ℚ) + K) = start + ks := by
        rw [hK, h.nat (by omega)]
        have := h.nat (n := start + ks) (by omega)
        push_cast at this
        exact this
      rw [hm, hρs, e]
      exact le_trans (min_le_left _ _) (min_le_right _ _)
    have : ⌊m⌋ < (start : ℤ) + ks + 1 := by rw [Int.floor_lt]; push_cast; linarith
    omega
  · omega

/-- Filters whose kernel has at least one tap (all filters of the library). -/
def Filter.OK (f : Filter) : Prop := 1 ≤ f.minKernelSize

section general
variable (h : RoundOK ρ) {f : Filter} (hf : f.OK) {inn out : ℕ}
include h

theorem wScale_nonneg : 0 ≤ wScale ρ inn out :=
  h.nonneg (div_nonneg (h.nonneg (by positivity)) (h.nonneg (by positivity)))

theorem wCenter_nonneg (i : ℕ) : 0 ≤ wCenter ρ inn out i := by
  unfold wCenter
  refine le_min (h.nonneg (mul_nonneg (h.nonneg ?_) (wScale_nonneg h))) (h.nonneg (by positivity))
  have := h.nonneg (q := (i : ℚ)) (by positivity)
  linarith

include hf

theorem wKernelSize_pos : 1 ≤ wKernelSize ρ f inn out := by
  unfold wKernelSize
  have hc : 1 ≤ wCutoff ρ f inn out := by
    unfold wCutoff; split_ifs
    · exact le_max_right _ _
    · exact le_refl _
  have h1 : (1 : ℚ) ≤ f.minKernelSize * wCutoff ρ f inn out := by
    have hf' : 1 ≤ f.minKernelSize := hf
    nlinarith
  have h2 := h.one_le h1
  have h3 : (1 : ℤ) ≤ F32.round (ρ (f.minKernelSize * wCutoff ρ f inn out)) := by
    unfold F32.round
    rw [if_pos (by linarith), Int.le_floor]
    push_cast; linarith
  unfold F32.toUsize; omega

theorem wRadius_ge : 1 / 2 ≤ wRadius ρ f inn out := by
  unfold wRadius
  have h1 : (1 : ℚ) ≤ ρ (wKernelSize ρ f inn out) :=
    h.one_le (by exact_mod_cast wKernelSize_pos (inn := inn) (out := out) h hf)
  have h2 := h.mono (show ((1 : ℤ) : ℚ) / 2 ≤ ρ (wKernelSize ρ f inn out) / 2 by push_cast; linarith)
  rw [h.half 1 (by norm_num)] at h2
  push_cast at h2; exact h2

theorem window_ok (h1 : 1 ≤ inn) (h2 : inn ≤ 2 ^ 23) (i : ℕ) :
    wStart ρ f inn out i < wEnd ρ f inn out i ∧ wEnd ρ f inn out i ≤ inn ∧
      wEnd ρ f inn out i - wStart ρ f inn out i ≤ wKernelSize ρ f inn out := by
  refine window_core h h1 h2 (wCenter_nonneg h i) ?_ (wRadius_ge h hf) rfl (wKernelSize_pos h hf)
  unfold wCenter
  rw [h.nat (n := inn) (by omega)]; exact min_le_right _ _

end general

/-! The loop over output coordinates. -/

/-- A row of weights padded with zeros to the kernel size. -/
def padRow (ks : ℕ) (r : List ℚ) : List ℚ := r ++ List.replicate (ks - r.length) 0

theorem padRow_length {ks : ℕ} {r : List ℚ} (h : r.length ≤ ks) : (padRow ks r).length = ks := by
  simp [padRow]; omega

theorem flatMap_block_length {α : Type} {ks : ℕ} (g : ℕ → List α) : ∀ n, (∀ j, j < n → (g j).length = ks) →
    ((List.range n).flatMap g).length = n * ks
  | 0, _ => by simp
  | n + 1, h => by
    rw [List.range_succ, List.flatMap_append, List.length_append,
      flatMap_block_length g n (fun j hj => h j (by omega))]
    simp [h n (by omega)]; ring

theorem flatMap_block_get {α : Type} {ks : ℕ} (g : ℕ → List α) : ∀ n, (∀ j, j < n → (g j).length = ks) →
    ∀ i k, i < n → k < ks → ((List.range n).flatMap g)[i * ks + k]? = (g i)[k]?
  | 0, _, i, k, hi, hk => by omega
  | n + 1, h, i, k, hi, hk => by
    have hl := flatMap_block_length g n (fun j hj => h j (by omega))
    rw [List.range_succ, List.flatMap_append]
    rcases Nat.lt_or_ge i n with hin | hin
    · have hlt : i * ks + k < n * ks := by
        have : (i + 1) * ks ≤ n * ks := Nat.mul_le_mul_right _ hin
        nlinarith
      rw [List.getElem?_append_left (by rw [hl]; exact hlt)]
      exact flatMap_block_get g n (fun j hj => h j (by omega)) i k hin hk
    · have : i = n := by omega
      subst this
      rw [List.getElem?_append_right (by rw [hl]; omega), hl, Nat.add_sub_cancel_left]
      simp

/-- Invariant of the loop after `i` output coordinates. -/
structure WInv (R : ℕ → List ℚ) (B : ℕ → Bounds) (ks out i : ℕ) (st : WState) : Prop where
  pos : st.filterPosition = i * ks
  bounds : st.bounds = (List.range i).map B
  lf : st.localFilters.length = ks
  weights : st.weights = (List.range i).flatMap (fun j => padRow ks (R j)) ++
    List.replicate ((out - i) * ks) 0

theorem overwrite_replicate (r : List ℚ) : overwrite r (List.replicate r.length 0) = r := by
  induction r with
  | nil => rfl
  | cons a t ih => simp [overwrite, List.replicate_succ, ih]

/-- Writing one row behind finished rows. -/
theorem row_write {R : ℕ → List ℚ} {B : ℕ → Bounds} {ks out i : ℕ} {st : WState}
    (hi : i < out) (hI : WInv R B ks out i st) (hR : ∀ j, j ≤ i → (R j).length ≤ ks) (r : List ℚ)
    (hr : r ++ List.replicate (ks - r.length) 0 = padRow ks (R i)) (hrl : r.length ≤ ks) :
    st.weights.take st.filterPosition ++
      (overwrite r ((st.weights.drop st.filterPosition).take r.length) ++
        (st.weights.drop st.filterPosition).drop r.length) =
    (List.range (i + 1)).flatMap (fun j => padRow ks (R j)) ++ List.replicate ((out - (i + 1)) * ks) 0 := by
  have hl := flatMap_block_length (fun j => padRow ks (R j)) i
    (fun j hj => padRow_length (hR j (by omega)))
  rw [hI.weights, hI.pos, List.take_left' hl, List.drop_left' hl, List.range_succ,
    List.flatMap_append]
  have e : (out - i) * ks = r.length + ((ks - r.length) + (out - (i + 1)) * ks) := by
    have : out - i = (out - (i + 1)) + 1 := by omega
    rw [this, Nat.add_mul]; omega
  rw [e, List.replicate_add, List.take_left' (by simp), List.drop_left' (by simp),
    overwrite_replicate, List.replicate_add]
  simp [← hr, List.append_assoc]

theorem storeRow_inv {R : ℕ → List ℚ} {B : ℕ → Bounds} {ks out i size start : ℕ} {sum : ℚ}
    {st : WState} (hi : i < out) (hI : WInv R B ks out i st)
    (hR : ∀ j, j ≤ i → (R j).length ≤ ks) (hs : size ≤ ks) (hB : B i = ⟨start, size⟩)
    (hrow : R i = if sum ≠ 0 then (st.localFilters.take size).map fun v => ρ (v * ρ (1 / sum))
      else List.replicate size 0) :
    WInv R B ks out (i + 1) (storeRow ρ ks start size sum st) := by
  refine ⟨by simp [storeRow, hI.pos]; ring, by simp [storeRow, hI.bounds, List.range_succ, hB],
    by simp [storeRow, hI.lf], ?_⟩
  unfold storeRow
  have hl : ((st.localFilters.take size).map fun v => ρ (v * ρ (1 / sum))).length = size := by
    simp [hI.lf]; omega
  by_cases h0 : sum ≠ 0
  · simp only [h0, ne_eq, not_false_eq_true, if_true, fdiv_eq h0]
    rw [if_pos h0] at hrow
    have := row_write hi hI hR ((st.localFilters.take size).map fun v => ρ (v * ρ (1 / sum)))
      (by rw [← hrow]; rfl) (by omega)
    rw [hl] at this
    exact this
  · simp only [h0, if_false]
    rw [if_neg h0] at hrow
    have := row_write hi hI hR [] (by rw [hrow]; simp [padRow]; omega) (by simp)
    simp only [overwrite, List.length_nil, List.drop_zero, List.take_zero,
      List.nil_append, List.take_append_drop] at this
    exact this


/-- The raw weights of output coordinate `i`. -/
def rawRow (ρ : ℚ → ℚ) (f : Filter) (inn out i : ℕ) : List ℚ :=
  (List.range (wEnd ρ f inn out i - wStart ρ f inn out i)).map fun j =>
    rawWeight ρ f inn out i (wStart ρ f inn out i + j)

/-- The weights before normalisation and their accumulated sum. -/
def preRow (ρ : ℚ → ℚ) (f : Filter) (ws : List ℚ) : List ℚ × ℚ :=
  match f.isEwa, ws with
  | true, w0 :: rest => let (r, s) := ewaLoop ρ w0 w0 rest; (w0 :: r, s)
  | _, ws => (ws, sumF ρ ws)

theorem ewaLoop_length (prev sum : ℚ) : ∀ ws, (ewaLoop ρ prev sum ws).1.length = ws.length := by
  intro ws
  induction ws generalizing prev sum with
  | nil => rfl
  | cons w ws ih => simp [ewaLoop, ih]

theorem preRow_length (f : Filter) (ws : List ℚ) : (preRow ρ f ws).1.length = ws.length := by
  unfold preRow
  split
  · simp [ewaLoop_length]
  · rfl

/-- Normalised weights. -/
def normRow (ρ : ℚ → ℚ) (p : List ℚ × ℚ) : List ℚ :=
  if p.2 ≠ 0 then p.1.map fun v => ρ (v * ρ (1 / p.2)) else List.replicate p.1.length 0

theorem normRow_length (p : List ℚ × ℚ) : (normRow ρ p).length = p.1.length := by
  unfold normRow; split_ifs <;> simp

/-- The weights of output coordinate `i` in the general branch. -/
def genRow (ρ : ℚ → ℚ) (f : Filter) (inn out i : ℕ) : List ℚ :=
  normRow ρ (preRow ρ f (rawRow ρ f inn out i))

def genBound (ρ : ℚ → ℚ) (f : Filter) (inn out i : ℕ) : Bounds :=
  ⟨wStart ρ f inn out i, wEnd ρ f inn out i - wStart ρ f inn out i⟩

theorem genRow_length (f : Filter) (inn out i : ℕ) :
    (genRow ρ f inn out i).length = (genBound ρ f inn out i).size := by
  unfold genRow
  rw [normRow_length, preRow_length]
  simp [rawRow, genBound]

theorem overwrite_take : ∀ (s d : List ℚ), s.length ≤ d.length → (overwrite s d).take s.length = s
  | [], d, _ => by simp
  | a :: s, [], h => by simp at h
  | a :: s, b :: d, h => by
    simp only [List.length_cons] at h
    simp [overwrite, overwrite_take s d (by omega)]

theorem smooth_spec (f : Filter) (ws old : List ℚ) (h1 : 1 ≤ ws.length) (h2 : ws.length ≤ old.length) :
    (smooth ρ f ws.length (sumF ρ ws) (overwrite ws old)).2 = (preRow ρ f ws).2 ∧
    (smooth ρ f ws.length (sumF ρ ws) (overwrite ws old)).1.take ws.length = (preRow ρ f ws).1 ∧
    (smooth ρ f ws.length (sumF ρ ws) (overwrite ws old)).1.length = old.length := by
  cases ws with
  | nil => simp at h1
  | cons w0 ws =>
    cases old with
    | nil => simp at h2
    | cons o0 old =>
      simp only [List.length_cons, Nat.add_le_add_iff_right] at h2
      cases he : f.isEwa with
      | false =>
        simp [smooth, preRow, he, overwrite, overwrite_take ws old h2]
      | true =>
        have ht := overwrite_take ws old h2
        simp only [smooth, preRow, he, overwrite, List.length_cons, Nat.add_sub_cancel, ht]
        refine ⟨trivial, ?_, ?_⟩
        · rw [List.take_succ_cons, List.take_left' (ewaLoop_length _ _ _)]
        · simp [ewaLoop_length]; omega

theorem weightStep_inv {f : Filter} {inn out i : ℕ} {st : WState} (hi : i < out)
    (hI : WInv (genRow ρ f inn out) (genBound ρ f inn out) (wKernelSize ρ f inn out) out i st)
    (hw : ∀ j, j < out → wStart ρ f inn out j < wEnd ρ f inn out j ∧
      wEnd ρ f inn out j - wStart ρ f inn out j ≤ wKernelSize ρ f inn out) :
    ∃ st', weightStep ρ f inn out st i = some st' ∧
      WInv (genRow ρ f inn out) (genBound ρ f inn out) (wKernelSize ρ f inn out) out (i + 1) st' := by
  obtain ⟨hlt, hle⟩ := hw i hi
  have hR : ∀ j, j ≤ i → (genRow ρ f inn out j).length ≤ wKernelSize ρ f inn out := by
    intro j hj
    rw [genRow_length]
    exact (hw j (by omega)).2
  have hlen : (rawRow ρ f inn out i).length = wEnd ρ f inn out i - wStart ρ f inn out i := by
    simp [rawRow]
  obtain ⟨s1, s2, s3⟩ := smooth_spec (ρ := ρ) f (rawRow ρ f inn out i) st.localFilters (by omega)
    (by rw [hI.lf]; omega)
  unfold weightStep
  simp only [if_neg (show ¬ wEnd ρ f inn out i < wStart ρ f inn out i by omega), hI.lf,
    if_neg (show ¬ wKernelSize ρ f inn out < wEnd ρ f inn out i - wStart ρ f inn out i by omega)]
  refine ⟨_, rfl, storeRow_inv hi ⟨hI.pos, hI.bounds, ?_, hI.weights⟩ hR (by omega) rfl ?_⟩
  · exact s3.trans hI.lf
  · change genRow ρ f inn out i = _
    unfold genRow normRow
    rw [← s1, preRow_length, ← hlen]
    have e : ((List.range (rawRow ρ f inn out i).length).map fun j =>
      rawWeight ρ f inn out i (wStart ρ f inn out i + j)) = rawRow ρ f inn out i := by
      rw [hlen]; rfl
    simp only [e]
    rw [s2]

theorem foldlM_inv {σ : Type} (step : σ → ℕ → Option σ) (I : ℕ → σ → Prop) (n : ℕ)
    (hstep : ∀ i st, i < n → I i st → ∃ st', step st i = some st' ∧ I (i + 1) st') :
    ∀ m, m ≤ n → ∀ st0, I 0 st0 → ∃ st', (List.range m).foldlM step st0 = some st' ∧ I m st' := by
  intro m
  induction m with
  | zero => intro _ st0 h; exact ⟨st0, rfl, h⟩
  | succ m ih =>
    intro hm st0 h0
    obtain ⟨s1, e1, i1⟩ := ih (by omega) st0 h0
    obtain ⟨s2, e2, i2⟩ := hstep m s1 (by omega) i1
    refine ⟨s2, ?_, i2⟩
    rw [List.range_succ, List.foldlM_append, e1]
    simp [e2]

/-- What the finished table contains. -/
structure TableIs (fw : FilterWeights ℚ) (ks out : ℕ) (R : ℕ → List ℚ) (B : ℕ → Bounds) : Prop where
  weights : fw.weights = (List.range out).flatMap (fun j => padRow ks (R j))
  bounds : fw.bounds = (List.range out).map B
  kernel : fw.kernelSize = ks
  aligned : fw.alignedSize = ks
  distinct : fw.distinctElements = out
  rowLen : ∀ i, i < out → (R i).length = (B i).size
  rowLe : ∀ i, i < out → (R i).length ≤ ks

theorem generateWeights_general {f : Filter} {inn out : ℕ}
    (hb : ¬ (f.isArea ∧ wScale ρ inn out < 1))
    (hw : ∀ j, j < out → wStart ρ f inn out j < wEnd ρ f inn out j ∧
      wEnd ρ f inn out j - wStart ρ f inn out j ≤ wKernelSize ρ f inn out) :
    ∃ fw, generateWeights ρ f inn out = some fw ∧
      TableIs fw (wKernelSize ρ f inn out) out (genRow ρ f inn out) (genBound ρ f inn out) := by
  have h := foldlM_inv (weightStep ρ f inn out)
    (fun i st => WInv (genRow ρ f inn out) (genBound ρ f inn out) (wKernelSize ρ f inn out) out i st)
    out (fun i st hi hI => weightStep_inv hi hI hw) out (le_refl _)
    ⟨List.replicate (wKernelSize ρ f inn out * out) 0, List.replicate (wKernelSize ρ f inn out) 0, 0, []⟩
    ⟨by simp, by simp, by simp, by simp [Nat.mul_comm]⟩
  obtain ⟨st, e, hI⟩ := h
  unfold generateWeights
  rw [if_neg hb]
  simp only [e]
  refine ⟨_, rfl, ?_, hI.bounds, rfl, rfl, rfl, fun i _ => genRow_length _ _ _ _, ?_⟩
  · simpa using hI.weights
  · intro i hi
    rw [genRow_length]; exact (hw i hi).2

section table
variable {fw : FilterWeights ℚ} {ks out : ℕ} {R : ℕ → List ℚ} {B : ℕ → Bounds}

theorem TableIs.bound (h : TableIs fw ks out R B) {i : ℕ} (hi : i < out) : fw.bound i = B i := by
  unfold FilterWeights.bound
  rw [h.bounds]
  simp [List.getD_eq_getElem?_getD, hi]

theorem TableIs.len (h : TableIs fw ks out R B) : fw.weights.length = out * ks := by
  rw [h.weights]
  exact flatMap_block_length _ _ fun j hj => padRow_length (h.rowLe j hj)

theorem TableIs.weight (h : TableIs fw ks out R B) {i k : ℕ} (hi : i < out) (hk : k < ks) :
    fw.weight i k = (R i).getD k 0 := by
  unfold FilterWeights.weight
  rw [h.weights, h.aligned, List.getD_eq_getElem?_getD,
    flatMap_block_get (fun j => padRow ks (R j)) out (fun j hj => padRow_length (h.rowLe j hj)) i k hi hk,
    padRow, List.getElem?_append, List.getD_eq_getElem?_getD]
  split_ifs with hl
  · rfl
  · rw [List.getElem?_eq_none (by omega : (R i).length ≤ k), List.getElem?_replicate]
    split_ifs <;> rfl

theorem TableIs.valid (h : TableIs fw ks out R B) {inn : ℕ} (hks : 0 < ks)
    (hB : ∀ i, i < out → 1 ≤ (B i).size ∧ (B i).start + (B i).size ≤ inn) : ValidTable fw inn out where
  bounds_len := by rw [h.bounds]; simp
  weights_len := by rw [h.len, h.aligned]
  aligned_pos := by rw [h.aligned]; exact hks
  size_pos i hi := by rw [h.bound hi]; exact (hB i hi).1
  size_le i hi := by rw [h.bound hi, h.aligned, ← h.rowLen i hi]; exact h.rowLe i hi
  inside i hi := by rw [h.bound hi]; exact (hB i hi).2

end table

/-! The area branch. -/

/-- `(filters, sum)` of the area branch. -/
def areaPre (ρ : ℚ → ℚ) (inn out i : ℕ) : List ℚ × ℚ :=
  let w0 := ρ (1 - areaDx ρ inn out i)
  let size := areaEnd ρ inn out i - areaStart ρ inn out i
  ([w0, areaDx ρ inn out i].take size,
    if 1 < size then ρ (ρ (0 + w0) + areaDx ρ inn out i) else ρ (0 + w0))

def areaRow (ρ : ℚ → ℚ) (inn out i : ℕ) : List ℚ :=
  let p := areaPre ρ inn out i
  if p.2 ≠ 0 then p.1.map fun v => ρ (v * ρ (1 / p.2))
  else ([1, 0] : List ℚ).take (areaEnd ρ inn out i - areaStart ρ inn out i)

def areaBound (ρ : ℚ → ℚ) (inn out i : ℕ) : Bounds :=
  ⟨areaStart ρ inn out i, areaEnd ρ inn out i - areaStart ρ inn out i⟩

theorem areaSx_nonneg (h : RoundOK ρ) (inn out i : ℕ) : 0 ≤ areaSx ρ inn out i := by
  unfold areaSx
  exact Int.floor_nonneg.2 (h.nonneg (mul_nonneg (h.nonneg (by positivity)) (wScale_nonneg h)))

theorem area_window (h : RoundOK ρ) {inn out i : ℕ} (h2 : inn ≤ 2 ^ 23)
    (hs : areaSx ρ inn out i < inn) :
    (areaStart ρ inn out i : ℤ) = areaSx ρ inn out i ∧
    areaEnd ρ inn out i = min (areaStart ρ inn out i + 2) inn := by
  have h0 := areaSx_nonneg h inn out i
  have e1 : (areaStart ρ inn out i : ℤ) = areaSx ρ inn out i := by
    unfold areaStart F32.toUsize; omega
  refine ⟨e1, ?_⟩
  unfold areaEnd
  have e2 : ρ ((areaSx ρ inn out i : ℚ) + 2) = ((areaSx ρ inn out i + 2 : ℤ) : ℚ) := by
    have := h.int (areaSx ρ inn out i + 2) (by rw [abs_of_nonneg (by omega)]; omega)
    push_cast at this ⊢; exact this
  have e3 : ρ ((areaStart ρ inn out i : ℕ) : ℚ) = ((areaSx ρ inn out i : ℤ) : ℚ) := by
    rw [h.nat (by omega), ← e1]; rfl
  rw [e3, e2, h.nat (n := inn) (by omega), Int.ceil_intCast, min_self]
  have e4 : min (((areaSx ρ inn out i + 2 : ℤ) : ℚ)) (inn : ℚ) =
      ((min (areaSx ρ inn out i + 2) (inn : ℤ) : ℤ) : ℚ) := by push_cast; rfl
  rw [e4, Int.floor_intCast]
  unfold F32.toUsize; omega

theorem areaStep_inv (h : RoundOK ρ) {inn out i : ℕ} {st : WState} (hi : i < out) (h2 : inn ≤ 2 ^ 23)
    (hI : WInv (areaRow ρ inn out) (areaBound ρ inn out) 2 out i st)
    (hs : ∀ j, j < out → areaSx ρ inn out j < inn) :
    ∃ st', areaStep ρ inn out st i = some st' ∧
      WInv (areaRow ρ inn out) (areaBound ρ inn out) 2 out (i + 1) st' := by
  have hw := fun j hj => area_window h (i := j) (out := out) h2 (hs j hj)
  have hR : ∀ j, j ≤ i → (areaRow ρ inn out j).length ≤ 2 := by
    intro j hj
    unfold areaRow areaPre
    simp only
    split_ifs <;> simp
  obtain ⟨w1, w2⟩ := hw i hi
  have hsi := hs i hi
  unfold areaStep
  simp only [if_neg (show ¬ areaEnd ρ inn out i < areaStart ρ inn out i by omega)]
  have hI' : WInv (areaRow ρ inn out) (areaBound ρ inn out) 2 out i
    { st with localFilters := [ρ (1 - areaDx ρ inn out i), areaDx ρ inn out i] } :=
    ⟨hI.pos, hI.bounds, rfl, hI.weights⟩
  by_cases h0 : (areaPre ρ inn out i).2 ≠ 0
  · have h0' := h0
    unfold areaPre at h0'
    rw [if_pos h0']
    refine ⟨_, rfl, storeRow_inv hi hI' hR (by omega) rfl ?_⟩
    rw [if_pos h0']
    unfold areaRow
    rw [if_pos h0]
    rfl
  · have h0' := h0
    unfold areaPre at h0'
    rw [if_neg h0']
    have hrow : areaRow ρ inn out i = ([1, 0] : List ℚ).take (areaEnd ρ inn out i - areaStart ρ inn out i) := by
      unfold areaRow; rw [if_neg h0]
    have hpad : [1] ++ List.replicate (2 - ([1] : List ℚ).length) 0 = padRow 2 (areaRow ρ inn out i) := by
      rw [hrow]
      have : areaEnd ρ inn out i - areaStart ρ inn out i = 1 ∨
        areaEnd ρ inn out i - areaStart ρ inn out i = 2 := by omega
      rcases this with e | e <;> rw [e] <;> simp [padRow]
    have hrw := row_write hi hI hR [1] hpad (by simp)
    have hlen : st.weights.length = out * 2 := by
      rw [hI.weights, List.length_append, flatMap_block_length _ i
        (fun j hj => padRow_length (hR j (by omega)))]
      simp; omega
    have hwr : writeAt? st.weights st.filterPosition [1] = some
        ((List.range (i + 1)).flatMap (fun j => padRow 2 (areaRow ρ inn out j)) ++
          List.replicate ((out - (i + 1)) * 2) 0) := by
      unfold writeAt?
      rw [if_pos (by simp only [List.length_cons, List.length_nil]; rw [hlen, hI.pos]; omega), ← hrw]
      have hne : (st.weights.drop st.filterPosition).take 1 ≠ [] := by
        intro hcon
        have := congrArg List.length hcon
        simp only [List.length_take, List.length_drop, List.length_nil, hlen, hI.pos] at this
        omega
      cases hd : st.weights.drop st.filterPosition with
      | nil => rw [hd] at hne; simp at hne
      | cons a t =>
        have : st.weights.drop (st.filterPosition + 1) = t := by
          rw [← List.drop_drop, hd]; rfl
        simp [overwrite, this]
    simp only [hwr]
    refine ⟨_, rfl, ?_, ?_, rfl, rfl⟩
    · simp [hI.pos]; ring
    · simp [hI.bounds, List.range_succ, areaBound]

theorem generateWeights_area (h : RoundOK ρ) {f : Filter} {inn out : ℕ}
    (hb : f.isArea ∧ wScale ρ inn out < 1) (h2 : inn ≤ 2 ^ 23)
    (hs : ∀ j, j < out → areaSx ρ inn out j < inn) :
    ∃ fw, generateWeights ρ f inn out = some fw ∧
      TableIs fw 2 out (areaRow ρ inn out) (areaBound ρ inn out) := by
  have hh := foldlM_inv (areaStep ρ inn out)
    (fun i st => WInv (areaRow ρ inn out) (areaBound ρ inn out) 2 out i st)
    out (fun i st hi hI => areaStep_inv h hi h2 hI hs) out (le_refl _)
    ⟨List.replicate (2 * out) 0, List.replicate 2 0, 0, []⟩
    ⟨by simp, by simp, by simp, by simp [Nat.mul_comm]⟩
  obtain ⟨st, e, hI⟩ := hh
  unfold generateWeights
  rw [if_pos hb]
  simp only [e]
  have hl : ∀ i, i < out → (areaRow ρ inn out i).length = (areaBound ρ inn out i).size := by
    intro i hi
    obtain ⟨w1, w2⟩ := area_window h (i := i) (out := out) h2 (hs i hi)
    have := hs i hi
    unfold areaRow areaPre areaBound
    simp only
    split_ifs <;> simp <;> omega
  refine ⟨_, rfl, ?_, hI.bounds, rfl, rfl, rfl, hl, ?_⟩
  · simpa using hI.weights
  · intro i hi
    obtain ⟨w1, w2⟩ := area_window h (i := i) (out := out) h2 (hs i hi)
    rw [hl i hi]; unfold areaBound; simp only; omega

/-- Exact arithmetic: the area window is always inside. -/
theorem areaSx_exact {inn out i : ℕ} (h1 : 1 ≤ inn) (hi : i < out) : areaSx id inn out i < inn := by
  unfold areaSx wScale
  rw [Int.floor_lt]
  simp only [id]
  have ho : (0 : ℚ) < out := by exact_mod_cast (by omega : 0 < out)
  have hlt : (i : ℚ) < out := by exact_mod_cast hi
  have hn : (0 : ℚ) < inn := by exact_mod_cast h1
  rw [← mul_div_assoc, div_lt_iff₀ ho]
  push_cast
  nlinarith

/-- binary32: the area window is inside for outputs up to `2^22`. -/
theorem areaSx_rnd {inn out i : ℕ} (h1 : 1 ≤ inn) (h2 : inn ≤ 2 ^ 23) (ho : out ≤ 2 ^ 22)
    (hi : i < out) : areaSx F32.rnd inn out i < inn := by
  unfold areaSx wScale
  rw [Int.floor_lt]
  have ho0 : (0 : ℚ) < out := by exact_mod_cast (by omega : 0 < out)
  have hlt : (i : ℚ) + 1 ≤ out := by exact_mod_cast hi
  have hn : (1 : ℚ) ≤ inn := by exact_mod_cast h1
  have hoq : (out : ℚ) ≤ 2 ^ 22 := by exact_mod_cast ho
  rw [RoundOK.rnd.nat (n := i) (by omega), RoundOK.rnd.nat (n := inn) (by omega),
    RoundOK.rnd.nat (n := out) (by omega)]
  set q : ℚ := inn / out with hq
  have hqo : q * out = inn := by rw [hq]; field_simp
  have hq0 : 0 < q := by positivity
  have e1 := F32.rnd_err_le q
  set s := F32.rnd q with hs
  have hs0 : 0 ≤ s := F32.rnd_nonneg hq0.le
  rw [abs_le, abs_of_pos hq0] at e1
  have hp : (0 : ℚ) ≤ (i : ℚ) * s := by positivity
  have e2 := F32.rnd_err_le ((i : ℚ) * s)
  rw [abs_le, abs_of_nonneg hp] at e2
  push_cast
  have b1 : s ≤ q * (1 + 1 / 2 ^ 24) + 1 / 2 ^ 150 := by linarith [e1.2]
  have hi0 : (0 : ℚ) ≤ i := by positivity
  have b2 : (i : ℚ) * s ≤ ((out : ℚ) - 1) * (q * (1 + 1 / 2 ^ 24) + 1 / 2 ^ 150) :=
    mul_le_mul (by linarith) b1 hs0 (by linarith)
  have b3 : F32.rnd ((i : ℚ) * s) ≤ (i : ℚ) * s * (1 + 1 / 2 ^ 24) + 1 / 2 ^ 150 := by linarith [e2.2]
  have hql : 1 / 2 ^ 22 ≤ q := by
    rw [hq, le_div_iff₀ ho0]; nlinarith
  -- (out-1) q = inn - q
  have b4 : ((out : ℚ) - 1) * (q * (1 + 1 / 2 ^ 24) + 1 / 2 ^ 150) =
      (inn - q) * (1 + 1 / 2 ^ 24) + ((out : ℚ) - 1) / 2 ^ 150 := by rw [← hqo]; ring
  have hin : (inn : ℚ) ≤ 2 ^ 22 * q := by rw [← hqo]; nlinarith
  rw [b4] at b2
  have b5 : ((out : ℚ) - 1) / 2 ^ 150 ≤ 1 / 2 ^ 128 := by
    rw [div_le_div_iff₀ (by positivity) (by positivity)]
    nlinarith
  have b6 : F32.rnd ((i : ℚ) * s) ≤ ((inn - q) * (1 + 1 / 2 ^ 24) + 1 / 2 ^ 128) * (1 + 1 / 2 ^ 24) + 1 / 2 ^ 150 := by
    refine le_trans b3 ?_
    have : (i : ℚ) * s ≤ (inn - q) * (1 + 1 / 2 ^ 24) + 1 / 2 ^ 128 := by linarith
    nlinarith
  refine lt_of_le_of_lt b6 ?_
  -- remaining: linear in inn, q
  norm_num at hql hin ⊢
  nlinarith

end PicScale
