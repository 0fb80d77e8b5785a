import Verif.Lemmas.NeonAlpha
import Verif.Lemmas.AlphaCheck
import Verif.Props.Alpha

/-!
What the NEON alpha functions compute: exact division by 255, the reciprocal estimate, the row sums.
-/

namespace PicScale

open Spec Finset

/-! ### values -/

theorem neonDiv255_eq {c a : ℕ} (hc : c ≤ 255) (ha : a ≤ 255) : neonDiv255 (c * a) = roundDiv (c * a) 255 := by
  rw [← C31_division.1 c a hc ha]
  have := Nat.mul_le_mul hc ha
  generalize c * a = v at *
  simp only [neonDiv255, vrsra8, vqrshrn8, divBy255, Nat.shiftRight_eq_div_pow, Nat.reducePow]
  omega

/-- The relative error of the reciprocal estimate, for every nonzero 8-bit alpha. -/
theorem vrecpe1_err {a : ℕ} (h : 1 ≤ a) (h' : a ≤ 255) : |vrecpe1 (a : ℚ) * a - 1| ≤ 187 / 65536 := by
  have key : ∀ a < 256, 1 ≤ a → |vrecpe1 ((a : ℕ) : ℚ) * (a : ℕ) - 1| ≤ 187 / 65536 := by decide +kernel
  exact key a (by omega) h

theorem unpremulLaneN_opaque {c : ℕ} (hc : c ≤ 255) : unpremulLaneN c 255 = c := by
  have key : ∀ c < 256, unpremulLaneN c 255 = c := by decide +kernel
  exact key c (by omega)

theorem unpremulLaneN_err {c a : ℕ} (hc : c ≤ 255) (ha : 1 ≤ a) (ha' : a ≤ 255) :
    |((unpremulLaneN c a : ℕ) : ℚ) - min (255 : ℚ) (255 * (c : ℚ) / a)| ≤ 5 / 4 := by
  have haq : (0 : ℚ) < a := by exact_mod_cast ha
  have haq1 : (1 : ℚ) ≤ a := by exact_mod_cast ha
  have hcq : (c : ℚ) ≤ 255 := by exact_mod_cast hc
  have h := vrecpe1_err ha ha'
  set e : ℚ := 255 * c / a with he
  have he0 : 0 ≤ e := by rw [he]; positivity
  have he1 : e ≤ 65025 := by rw [he, div_le_iff₀ haq]; nlinarith
  set x : ℚ := ((c * 255 : ℕ) : ℚ) * vrecpe1 a with hx
  have hxe : x - e = e * (vrecpe1 a * a - 1) := by
    rw [hx, he]; push_cast; field_simp
  have h1 : |x - e| ≤ e * (187 / 65536) := by
    rw [hxe, abs_mul, abs_of_nonneg he0]; gcongr
  have hxa : |x| ≤ e * 2 := by
    calc |x| = |(x - e) + e| := by congr 1; ring
      _ ≤ |x - e| + |e| := abs_add_le _ _
      _ ≤ e * (187 / 65536) + e := by rw [abs_of_nonneg he0]; linarith
      _ ≤ e * 2 := by nlinarith
  have h2 := F32.rnd_err_le x
  have h3 : |F32.rnd x - e| ≤ e * (94 / 32768) + 1 / 1000000 := by
    calc |F32.rnd x - e| = |(F32.rnd x - x) + (x - e)| := by congr 1; ring
      _ ≤ |F32.rnd x - x| + |x - e| := abs_add_le _ _
      _ ≤ (e * 2 / 2 ^ 24 + 1 / 2 ^ 150) + e * (187 / 65536) := by
        have : |x| / 2 ^ 24 ≤ e * 2 / 2 ^ 24 := by gcongr
        linarith
      _ ≤ _ := by
        have : (1 : ℚ) / 2 ^ 150 ≤ 1 / 1000000 := by norm_num
        nlinarith
  have hdef : unpremulLaneN c a = min (vcvta1 (F32.rnd x) % 65536) 255 := rfl
  rw [hdef]
  rw [abs_le] at h3
  set q := F32.rnd x with hq
  have hfl1 := Int.floor_le (q + 1 / 2)
  have hfl2 := Int.lt_floor_add_one (q + 1 / 2)
  have hn0 : 0 ≤ ⌊q + 1 / 2⌋ := by
    rw [Int.floor_nonneg]; nlinarith
  have hn1 : ⌊q + 1 / 2⌋ < 65536 := by
    rw [Int.floor_lt]; push_cast; nlinarith
  obtain ⟨n, hn⟩ := Int.eq_ofNat_of_zero_le hn0
  have hv : vcvta1 q = n := by unfold vcvta1; rw [hn]; rw [hn] at hn1; simp; omega
  rw [hv]
  rw [hn] at hfl1 hfl2 hn1
  push_cast at hfl1 hfl2
  have hn2 : n < 65536 := by exact_mod_cast hn1
  rw [Nat.mod_eq_of_lt hn2]
  push_cast
  rcases le_total (n : ℚ) 255 with hc1 | hc1 <;> rcases le_total (255 : ℚ) e with hc2 | hc2
  · rw [min_eq_left hc1, min_eq_left hc2, abs_le]
    constructor
    · by_cases h258 : e ≤ 258
      · nlinarith
      · push Not at h258
        nlinarith
    · linarith
  · rw [min_eq_left hc1, min_eq_right hc2, abs_le]
    constructor <;> nlinarith
  · rw [min_eq_right hc1, min_eq_left hc2]; norm_num
  · rw [min_eq_right hc1, min_eq_right hc2, abs_le]
    constructor <;> nlinarith

theorem unpremulLaneN_le (c a : ℕ) : unpremulLaneN c a ≤ 255 := min_le_right _ _

/-! ### row sums -/

/-- The four 32-bit lanes of a register add up to `T` modulo `2^32`. -/
def NeonSum (s : List ℕ) (T : ℕ) : Prop := ∃ a b c d, s = [a, b, c, d] ∧ (a + b + c + d) % 2 ^ 32 = T % 2 ^ 32

theorem vaddvq32_of {s : List ℕ} {T : ℕ} (h : NeonSum s T) : vaddvq32 s = T % 2 ^ 32 := by
  obtain ⟨a, b, c, d, rfl, h⟩ := h
  rw [← h]
  simp [vaddvq32, add_assoc]

theorem alphaTailN_sum {first B h T : ℕ} (hh : h = T % 2 ^ 32) {row : List ℕ} (hb : ∀ v ∈ row, v ≤ B) :
    alphaTailN first h row = (T + alphaSum first (row.take (row.length / 4 * 4))) % 2 ^ 32 := by
  have := fold_alphaSum (σ := ℕ) (HS := fun h T => h = T % 2 ^ 32) (B := B) (m := 1) (k := 1) (first := first) (by omega)
    (step := fun h p => (h + (p.getD 3 0 ^^^ first)) % 2 ^ 32) (by
      intro s T c hc _ hs
      rw [hs]
      have : alphaSum first c = c.getD 3 0 ^^^ first := by
        unfold alphaSum; rw [hc]; simp
      rw [this, one_mul, Nat.mod_add_mod]) hb (s := h) (T := T) hh
  simpa [alphaTailN] using this

theorem neonSum_zero : NeonSum [0, 0, 0, 0] 0 := ⟨0, 0, 0, 0, rfl, rfl⟩

theorem neonSum_add {s : List ℕ} {T a b c d : ℕ} (h : NeonSum s T) :
    NeonSum (vaddq32 s [a, b, c, d]) (T + (a + b + c + d)) := by
  obtain ⟨a', b', c', d', rfl, h⟩ := h
  refine ⟨_, _, _, _, rfl, ?_⟩
  norm_num at h ⊢
  omega

theorem neonSum16 {first : ℕ} {s c : List ℕ} {T : ℕ} (h : NeonSum s T) (hc : c.length = 4 * 16) :
    NeonSum (vaddq32 s (vpaddl (vpaddl (veorV (plane4 16 0 c 3) first)))) (T + 1 * alphaSum first c) := by
  have := neonSum_add h (a := (c.getD 3 0 ^^^ first) + (c.getD 7 0 ^^^ first) + ((c.getD 11 0 ^^^ first) + (c.getD 15 0 ^^^ first)))
    (b := (c.getD 19 0 ^^^ first) + (c.getD 23 0 ^^^ first) + ((c.getD 27 0 ^^^ first) + (c.getD 31 0 ^^^ first)))
    (c := (c.getD 35 0 ^^^ first) + (c.getD 39 0 ^^^ first) + ((c.getD 43 0 ^^^ first) + (c.getD 47 0 ^^^ first)))
    (d := (c.getD 51 0 ^^^ first) + (c.getD 55 0 ^^^ first) + ((c.getD 59 0 ^^^ first) + (c.getD 63 0 ^^^ first)))
  refine (congrArg _ ?_).mp this
  unfold alphaSum
  rw [hc]
  simp only [Finset.sum_range_succ, Finset.sum_range_zero, show 4 * 16 / 4 = 16 from rfl]
  norm_num
  ring

theorem neonSum8 {first : ℕ} {s c : List ℕ} {T : ℕ} (h : NeonSum s T) (hc : c.length = 4 * 8) :
    NeonSum (vaddq32 s (vpaddl (veorV (plane4 8 0 c 3) first))) (T + 1 * alphaSum first c) := by
  have := neonSum_add h (a := (c.getD 3 0 ^^^ first) + (c.getD 7 0 ^^^ first)) (b := (c.getD 11 0 ^^^ first) + (c.getD 15 0 ^^^ first))
    (c := (c.getD 19 0 ^^^ first) + (c.getD 23 0 ^^^ first)) (d := (c.getD 27 0 ^^^ first) + (c.getD 31 0 ^^^ first))
  refine (congrArg _ ?_).mp this
  unfold alphaSum
  rw [hc]
  simp only [Finset.sum_range_succ, Finset.sum_range_zero, show 4 * 8 / 4 = 8 from rfl]
  norm_num
  ring

theorem neonSum8_twice {first : ℕ} {s c : List ℕ} {T : ℕ} (h : NeonSum s T) (hc : c.length = 4 * 8) :
    NeonSum (let b := vpaddl (vpaddl (veorV (plane4 8 0 c 3) first)); vaddq32 s (b ++ b)) (T + 2 * alphaSum first c) := by
  have := neonSum_add h (a := (c.getD 3 0 ^^^ first) + (c.getD 7 0 ^^^ first) + ((c.getD 11 0 ^^^ first) + (c.getD 15 0 ^^^ first)))
    (b := (c.getD 19 0 ^^^ first) + (c.getD 23 0 ^^^ first) + ((c.getD 27 0 ^^^ first) + (c.getD 31 0 ^^^ first)))
    (c := (c.getD 3 0 ^^^ first) + (c.getD 7 0 ^^^ first) + ((c.getD 11 0 ^^^ first) + (c.getD 15 0 ^^^ first)))
    (d := (c.getD 19 0 ^^^ first) + (c.getD 23 0 ^^^ first) + ((c.getD 27 0 ^^^ first) + (c.getD 31 0 ^^^ first)))
  refine (congrArg _ ?_).mp this
  unfold alphaSum
  rw [hc]
  simp only [Finset.sum_range_succ, Finset.sum_range_zero, show 4 * 8 / 4 = 8 from rfl]
  norm_num
  ring

theorem neonSum4_twice {first : ℕ} {s c : List ℕ} {T : ℕ} (h : NeonSum s T) (hc : c.length = 4 * 4) :
    NeonSum (let b := vpaddl (veorV (plane4 4 0 c 3) first); vaddq32 s (b ++ b)) (T + 2 * alphaSum first c) := by
  have := neonSum_add h (a := (c.getD 3 0 ^^^ first) + (c.getD 7 0 ^^^ first)) (b := (c.getD 11 0 ^^^ first) + (c.getD 15 0 ^^^ first))
    (c := (c.getD 3 0 ^^^ first) + (c.getD 7 0 ^^^ first)) (d := (c.getD 11 0 ^^^ first) + (c.getD 15 0 ^^^ first))
  refine (congrArg _ ?_).mp this
  unfold alphaSum
  rw [hc]
  simp only [Finset.sum_range_succ, Finset.sum_range_zero, show 4 * 4 / 4 = 4 from rfl]
  norm_num
  ring

/-- A NEON row sum: the whole row modulo `2^32`, some pixels counted twice. -/
def RowSumN (rowSum : ℕ → List ℕ → ℤ) : Prop :=
  ∀ first row, ∃ T : ℕ, rowSum first row = ((T % 2 ^ 32 : ℕ) : ℤ) ∧
    (row.length % 4 = 0 → alphaSum first row ≤ T ∧ T ≤ 2 * alphaSum first row)

theorem mem_le_sum (l : List ℕ) : ∀ v ∈ l, v ≤ l.sum := fun _ hv => List.le_sum_of_mem hv

theorem neonAlphaRow8_ok : RowSumN neonAlphaRow8 := by
  intro first row
  have hb := mem_le_sum row
  unfold neonAlphaRow8
  dsimp only
  have s1 := fold_alphaSum (HS := NeonSum) (B := row.sum) (m := 16) (k := 1) (first := first) (by omega)
    (step := fun s c => vaddq32 s (vpaddl (vpaddl (veorV (plane4 16 0 c 3) first)))) (fun s T c hc _ hs => neonSum16 hs hc)
    hb neonSum_zero
  have s2 := fold_alphaSum (HS := NeonSum) (B := row.sum) (m := 8) (k := 2) (first := first) (by omega)
    (step := fun s c => let b := vpaddl (vpaddl (veorV (plane4 8 0 c 3) first)); vaddq32 s (b ++ b))
    (fun s T c hc _ hs => neonSum8_twice hs hc) (mem_chunksRemainder hb (n := 64)) s1
  have s3 := alphaTailN_sum (first := first) (vaddvq32_of s2) (mem_chunksRemainder (mem_chunksRemainder hb (n := 64)) (n := 32))
  refine ⟨_, congrArg _ s3, fun h4 => ?_⟩
  have r1 := alphaSum_split first (m := 16) row
  have r2 := alphaSum_split first (m := 8) (chunksRemainder 64 row)
  rw [rem_take (chunksRemainder_mod (m := 8) (chunksRemainder_mod (m := 16) h4))]
  norm_num at r1 r2 ⊢
  omega

theorem neonAlphaRow16_ok : RowSumN neonAlphaRow16 := by
  intro first row
  have hb := mem_le_sum row
  unfold neonAlphaRow16
  dsimp only
  have s1 := fold_alphaSum (HS := NeonSum) (B := row.sum) (m := 8) (k := 1) (first := first) (by omega)
    (step := fun s c => vaddq32 s (vpaddl (veorV (plane4 8 0 c 3) first))) (fun s T c hc _ hs => neonSum8 hs hc)
    hb neonSum_zero
  have s2 := fold_alphaSum (HS := NeonSum) (B := row.sum) (m := 4) (k := 2) (first := first) (by omega)
    (step := fun s c => let b := vpaddl (veorV (plane4 4 0 c 3) first); vaddq32 s (b ++ b))
    (fun s T c hc _ hs => neonSum4_twice hs hc) (mem_chunksRemainder hb (n := 32)) s1
  have s3 := alphaTailN_sum (first := first) (vaddvq32_of s2) (mem_chunksRemainder (mem_chunksRemainder hb (n := 32)) (n := 16))
  refine ⟨_, congrArg _ s3, fun h4 => ?_⟩
  have r1 := alphaSum_split first (m := 8) row
  have r2 := alphaSum_split first (m := 4) (chunksRemainder 32 row)
  rw [rem_take (chunksRemainder_mod (m := 4) (chunksRemainder_mod (m := 8) h4))]
  norm_num at r1 r2 ⊢
  omega

/-- Rows of whole blocks are summed once. -/
theorem neonAlphaRow8_exact {first : ℕ} {row : List ℕ} (h : row.length % 64 = 0) :
    neonAlphaRow8 first row = ((alphaSum first row % 2 ^ 32 : ℕ) : ℤ) := by
  unfold neonAlphaRow8
  dsimp only
  have s1 := fold_alphaSum (HS := NeonSum) (B := row.sum) (m := 16) (k := 1) (first := first) (by omega)
    (step := fun s c => vaddq32 s (vpaddl (vpaddl (veorV (plane4 16 0 c 3) first)))) (fun s T c hc _ hs => neonSum16 hs hc)
    (mem_le_sum row) neonSum_zero
  rw [take_full h, Nat.zero_add, Nat.one_mul] at s1
  rw [remainder_nil h, chunksRemainder_nil, chunksExact_nil, List.foldl_nil]
  unfold alphaTailN
  rw [chunksExact_nil, List.foldl_nil]
  exact congrArg _ (vaddvq32_of s1)

theorem neonAlphaRow16_exact {first : ℕ} {row : List ℕ} (h : row.length % 32 = 0) :
    neonAlphaRow16 first row = ((alphaSum first row % 2 ^ 32 : ℕ) : ℤ) := by
  unfold neonAlphaRow16
  dsimp only
  have s1 := fold_alphaSum (HS := NeonSum) (B := row.sum) (m := 8) (k := 1) (first := first) (by omega)
    (step := fun s c => vaddq32 s (vpaddl (veorV (plane4 8 0 c 3) first))) (fun s T c hc _ hs => neonSum8 hs hc)
    (mem_le_sum row) neonSum_zero
  rw [take_full h, Nat.zero_add, Nat.one_mul] at s1
  rw [remainder_nil h, chunksRemainder_nil, chunksExact_nil, List.foldl_nil]
  unfold alphaTailN
  rw [chunksExact_nil, List.foldl_nil]
  exact congrArg _ (vaddvq32_of s1)

theorem i32_mod (T : ℕ) : i32 ((T % 2 ^ 32 : ℕ) : ℤ) = i32 (T : ℤ) := by
  unfold i32
  rw [show ((T % 2 ^ 32 : ℕ) : ℤ) = (T : ℤ) % ((2 ^ 32 : ℕ) : ℤ) by push_cast; rfl]
  exact Int.emod_bmod _ _

theorem RowSumN.ok {rowSum : ℕ → List ℕ → ℤ} (h : RowSumN rowSum) (B : ℕ) : RowSumOK B 2 fun f r => i32 (rowSum f r) := by
  intro first row _ _ h4
  obtain ⟨T, t1, t2⟩ := h first row
  exact ⟨T, by dsimp only; rw [t1, i32_mod], t2 h4⟩

/-- Whether a row sum is zero does not depend on the type it is stored in. -/
theorem RowSumN.varies {rowSum : ℕ → List ℕ → ℤ} (h : RowSumN rowSum) {store : List ℕ} {w stride : ℕ} :
    alphaVariesBy rowSum store w stride = alphaVariesBy (fun f r => i32 (rowSum f r)) store w stride := by
  unfold alphaVariesBy
  split_ifs
  · rfl
  · congr 1
    funext row
    dsimp only
    obtain ⟨T, t1, _⟩ := h (store.getD 3 0) (List.take (w * 4) row)
    rw [t1]
    rw [Bool.eq_iff_iff, bne_iff_ne, bne_iff_ne]
    have hlt : T % 2 ^ 32 < 2 ^ 32 := Nat.mod_lt _ (by norm_num)
    generalize T % 2 ^ 32 = n at hlt
    unfold i32
    rw [Int.bmod_def]
    push_cast
    split <;> omega

end PicScale
