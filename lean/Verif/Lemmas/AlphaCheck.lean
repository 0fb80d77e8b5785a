import Verif.Lemmas.AlphaX86
import Verif.Lemmas.SimdHorizontal
import Verif.Lemmas.FixedPass
import Verif.SpecAlpha

/-!
The vector alpha checks sum `alpha ^ first` over a row modulo `2^32`.
-/

namespace PicScale

open Spec Finset

/-- `∑ (alpha ^ first)` over the pixels of a row. -/
def alphaSum (first : ℕ) (l : List ℕ) : ℕ := ∑ i ∈ range (l.length / 4), (l.getD (4 * i + 3) 0 ^^^ first)

theorem alphaSum_split (first : ℕ) {m : ℕ} (l : List ℕ) :
    alphaSum first l = alphaSum first (l.take (l.length / (4 * m) * (4 * m))) +
      alphaSum first (chunksRemainder (4 * m) l) := by
  have hq : l.length / (4 * m) * (4 * m) ≤ l.length := Nat.div_mul_le_self _ _
  unfold alphaSum chunksRemainder
  set n := l.length / (4 * m) * (4 * m) with hn
  have h4 : n = 4 * (l.length / (4 * m) * m) := by rw [hn]; ring
  have e1 : (l.take n).length / 4 = n / 4 := by rw [List.length_take]; congr 1; omega
  have e2 : (l.drop n).length / 4 = l.length / 4 - n / 4 := by rw [List.length_drop]; omega
  have e3 : l.length / 4 = n / 4 + (l.length / 4 - n / 4) := by omega
  rw [e1, e2, e3, Finset.sum_range_add]
  congr 1
  · apply Finset.sum_congr rfl
    intro i hi
    rw [Finset.mem_range] at hi
    rw [List.getD_eq_getElem?_getD, List.getD_eq_getElem?_getD, List.getElem?_take, if_pos (by omega)]
  · rw [Nat.add_sub_cancel_left]
    apply Finset.sum_congr rfl
    intro i hi
    rw [List.getD_eq_getElem?_getD, List.getD_eq_getElem?_getD, List.getElem?_drop]
    congr 3
    omega

/-- A fold over chunks adds `k` times the alpha sum of the chunks. -/
theorem fold_alphaSum {σ : Type} {HS : σ → ℕ → Prop} {B m k first : ℕ} (hm : 0 < m) {step : σ → List ℕ → σ}
    (hstep : ∀ s T c, c.length = 4 * m → (∀ v ∈ c, v ≤ B) → HS s T → HS (step s c) (T + k * alphaSum first c))
    {l : List ℕ} (hb : ∀ v ∈ l, v ≤ B) {s : σ} {T : ℕ} (hs : HS s T) :
    HS ((chunksExact (4 * m) l).foldl step s) (T + k * alphaSum first (l.take (l.length / (4 * m) * (4 * m)))) := by
  unfold chunksExact
  have hq : l.length / (4 * m) * (4 * m) ≤ l.length := Nat.div_mul_le_self _ _
  have key : ∀ n, n ≤ l.length / (4 * m) →
      HS (((List.range n).map fun i => (l.drop (i * (4 * m))).take (4 * m)).foldl step s)
        (T + k * alphaSum first (l.take (n * (4 * m)))) := by
    intro n
    induction n with
    | zero => intro _; simpa [alphaSum] using hs
    | succ n ih =>
      intro hn
      have hle : (n + 1) * (4 * m) ≤ l.length := (Nat.mul_le_mul_right _ hn).trans hq
      have hle' : n * (4 * m) + 4 * m ≤ l.length := by rw [← Nat.succ_mul]; exact hle
      rw [List.range_succ, List.map_append, List.foldl_append]
      have h1 := hstep _ _ ((l.drop (n * (4 * m))).take (4 * m)) (by rw [List.length_take, List.length_drop]; omega)
        (fun v hv => hb v (List.mem_of_mem_drop (List.mem_of_mem_take hv))) (ih (by omega))
      have h2 : alphaSum first (l.take ((n + 1) * (4 * m))) = alphaSum first (l.take (n * (4 * m))) +
          alphaSum first ((l.drop (n * (4 * m))).take (4 * m)) := by
        unfold alphaSum
        have a1 : (l.take ((n + 1) * (4 * m))).length / 4 = n * m + m := by
          rw [List.length_take, Nat.min_eq_left hle, show (n + 1) * (4 * m) = (n * m + m) * 4 by ring, Nat.mul_div_cancel _ (by omega)]
        have a2 : (l.take (n * (4 * m))).length / 4 = n * m := by
          rw [List.length_take, Nat.min_eq_left (by omega), show n * (4 * m) = (n * m) * 4 by ring, Nat.mul_div_cancel _ (by omega)]
        have a3 : ((l.drop (n * (4 * m))).take (4 * m)).length / 4 = m := by
          rw [List.length_take, List.length_drop, Nat.min_eq_left (by omega)]; omega
        rw [a1, a2, a3, Finset.sum_range_add]
        congr 1
        · apply Finset.sum_congr rfl
          intro i hi
          rw [Finset.mem_range] at hi
          have h3 : n * (4 * m) = 4 * (n * m) := by ring
          have h4 : (n + 1) * (4 * m) = 4 * (n * m) + 4 * m := by ring
          rw [List.getD_eq_getElem?_getD, List.getD_eq_getElem?_getD, List.getElem?_take, List.getElem?_take,
            if_pos (by omega), if_pos (by omega)]
        · apply Finset.sum_congr rfl
          intro i hi
          rw [Finset.mem_range] at hi
          have h3 : n * (4 * m) = 4 * (n * m) := by ring
          have h4 : (n + 1) * (4 * m) = 4 * (n * m) + 4 * m := by ring
          rw [List.getD_eq_getElem?_getD, List.getD_eq_getElem?_getD, List.getElem?_take, List.getElem?_take,
            if_pos (by omega), if_pos (by omega), List.getElem?_drop]
          congr 3
          omega
      rw [h2, Nat.mul_add, ← Nat.add_assoc]
      exact h1
  exact key _ le_rfl

/-- The four 32-bit lanes of a register add up to `T` modulo `2^32`. -/
def HasSum32 (r : Reg) (T : ℕ) : Prop := ∃ f : ℕ → ℤ, r = lanes4 f ∧ i32 (f 0 + f 1 + f 2 + f 3) = i32 (T : ℤ)

theorem add32_of (f g : ℕ → ℤ) : add32 (lanes4 f) (lanes4 g) = lanes4 fun i => i32 (i32 (f i) + i32 (g i)) := by
  unfold add32 lanes4
  rw [lanes32_ofLanes32, lanes32_ofLanes32, List.map_map, List.map_map, zipWith_map_range]
  rfl

theorem hasSum_add {r s : Reg} {T U : ℕ} (hr : HasSum32 r T) (hs : HasSum32 s U) : HasSum32 (add32 r s) (T + U) := by
  obtain ⟨f, rfl, hf⟩ := hr
  obtain ⟨g, rfl, hg⟩ := hs
  refine ⟨_, add32_of f g, ?_⟩
  rw [i32_sum4, show i32 (f 0) + i32 (g 0) + (i32 (f 1) + i32 (g 1)) + (i32 (f 2) + i32 (g 2)) + (i32 (f 3) + i32 (g 3)) =
    (i32 (f 0) + i32 (f 1) + i32 (f 2) + i32 (f 3)) + (i32 (g 0) + i32 (g 1) + i32 (g 2) + i32 (g 3)) by ring,
    ← i32_i32_add, ← i32_add_i32, i32_sum4, i32_sum4, hf, hg, i32_i32_add, i32_add_i32]
  push_cast
  rfl

theorem hasSum_zero : HasSum32 setzero 0 := ⟨fun _ => 0, rfl, rfl⟩

theorem hsum32_of {r : Reg} {T : ℕ} (h : HasSum32 r T) : hsum32 r = i32 (T : ℤ) := by
  obtain ⟨f, rfl, hf⟩ := h
  rw [← hf]
  unfold hsum32
  have h1 : shuffle32 [2, 3, 0, 1] (lanes4 f) = lanes4 fun i => f ((i + 2) % 4) := rfl
  rw [h1, add32_of]
  have h2 : ∀ g : ℕ → ℤ, shufflelo16 [2, 3, 0, 1] (lanes4 g) = lanes4 fun i => g (if i = 0 then 1 else if i = 1 then 0 else i) := fun g => rfl
  dsimp only
  rw [h2, add32_of]
  unfold lanes4
  rw [lanes32_ofLanes32]
  simp only [List.range_eq_range', List.range', List.map_cons, List.getD_cons_zero]
  simp only [i32_i32, i32_i32_add, i32_add_i32, if_true]
  congr 1
  norm_num
  ring

theorem tail_sum {first : ℕ} {B : ℕ} {h : ℤ} {T : ℕ} (hh : h = i32 (T : ℤ)) {row : List ℕ} (hb : ∀ v ∈ row, v ≤ B) :
    alphaTail first h row = i32 ((T + alphaSum first (row.take (row.length / 4 * 4)) : ℕ) : ℤ) := by
  have := fold_alphaSum (σ := ℤ) (HS := fun h T => h = i32 (T : ℤ)) (B := B) (m := 1) (k := 1) (first := first) (by omega)
    (step := fun h p => i32 (h + ((p.getD 3 0 ^^^ first : ℕ) : ℤ))) (by
      intro s T c hc _ hs
      rw [hs, i32_i32_add]
      have : alphaSum first c = c.getD 3 0 ^^^ first := by
        unfold alphaSum; rw [hc]; simp
      rw [this]; push_cast; rw [one_mul]) hb (s := h) (T := T) hh
  simpa [alphaTail] using this

/-- A row sum: the whole row, some pixels perhaps counted up to `k` times. -/
def RowSumOK (B k : ℕ) (rowSum : ℕ → List ℕ → ℤ) : Prop :=
  ∀ first row, first ≤ B → (∀ v ∈ row, v ≤ B) → row.length % 4 = 0 →
    ∃ T : ℕ, rowSum first row = i32 (T : ℤ) ∧ alphaSum first row ≤ T ∧ T ≤ k * alphaSum first row

theorem rem_take {row : List ℕ} (h : row.length % 4 = 0) : row.take (row.length / 4 * 4) = row := by
  rw [List.take_of_length_le]; omega

theorem chunksRemainder_mod {m : ℕ} {row : List ℕ} (h : row.length % 4 = 0) : (chunksRemainder (4 * m) row).length % 4 = 0 := by
  unfold chunksRemainder
  rw [List.length_drop, show row.length / (4 * m) * (4 * m) = 4 * (row.length / (4 * m) * m) by ring]
  omega

theorem mem_chunksRemainder {n B : ℕ} {row : List ℕ} (h : ∀ v ∈ row, v ≤ B) : ∀ v ∈ chunksRemainder n row, v ≤ B :=
  fun v hv => h v (List.mem_of_mem_drop hv)

/-! ### RGBA8 -/

theorem xor_lanes {first : ℕ} (hf : first ≤ 255) {p : ℕ → ℕ} (hp : ∀ i, p i < 256) :
    xorBytes (shuffle8 (bytesOf p) alphaMask8) (set1epi32 first) = lanes4 fun i => ((p (4 * i + 3) ^^^ first : ℕ) : ℤ) := by
  unfold set1epi32
  rw [bytes32_byte (by omega)]
  have hx : ∀ i, p i ^^^ first < 256 := fun i => Nat.xor_lt_two_pow (n := 8) (hp i) (by omega)
  have h0 : shuffle8 (bytesOf p) alphaMask8 = [p 3, 0, 0, 0, p 7, 0, 0, 0, p 11, 0, 0, 0, p 15, 0, 0, 0] := rfl
  have h1 : xorBytes [p 3, 0, 0, 0, p 7, 0, 0, 0, p 11, 0, 0, 0, p 15, 0, 0, 0] (set1bytes32 [first, 0, 0, 0]) =
      [p 3 ^^^ first, 0, 0, 0, p 7 ^^^ first, 0, 0, 0, p 11 ^^^ first, 0, 0, 0, p 15 ^^^ first, 0, 0, 0] := by
    simp [xorBytes, set1bytes32]
  rw [h0, h1]
  show _ = bytes32 ((p 3 ^^^ first : ℕ) : ℤ) ++ (bytes32 ((p 7 ^^^ first : ℕ) : ℤ) ++
      (bytes32 ((p 11 ^^^ first : ℕ) : ℤ) ++ (bytes32 ((p 15 ^^^ first : ℕ) : ℤ) ++ [])))
  rw [bytes32_byte (hx _), bytes32_byte (hx _), bytes32_byte (hx _), bytes32_byte (hx _)]
  rfl

theorem addAlphas8_sum {first : ℕ} {chunk : List ℕ} {k : ℕ} {s : Reg} {T : ℕ} (hf : first ≤ 255)
    (hc : ∀ v ∈ chunk, v ≤ 255) (hl : 16 * k + 16 ≤ chunk.length) (hs : HasSum32 s T) :
    HasSum32 (addAlphas8 first chunk s k) (T + ∑ i ∈ range 4, (chunk.getD (16 * k + 4 * i + 3) 0 ^^^ first)) := by
  unfold addAlphas8
  apply hasSum_add hs
  rw [regAt_eq hl]
  have hb : ∀ i, chunk.getD i 0 < 256 := fun i => by have := getD_le_of_forall hc i; omega
  refine ⟨fun i => ((chunk.getD (16 * k + (4 * i + 3)) 0 ^^^ first : ℕ) : ℤ), ?_, ?_⟩
  · simp only [Nat.mod_eq_of_lt (hb _)]
    exact xor_lanes hf (p := fun i => chunk.getD (16 * k + i) 0) (fun i => hb _)
  · rw [Finset.sum_range_succ, Finset.sum_range_succ, Finset.sum_range_succ, Finset.sum_range_succ]
    simp [add_assoc]

theorem sseAlphaRow8_ok : RowSumOK 255 1 sseAlphaRow8 := by
  intro first row hf hb h4
  unfold sseAlphaRow8
  dsimp only
  have s1 := fold_alphaSum (HS := HasSum32) (B := 255) (m := 16) (k := 1) (first := first) (by omega)
    (step := fun s c => [0, 1, 2, 3].foldl (addAlphas8 first c) s) (by
      intro s T c hc hcb hs
      simp only [List.foldl_cons, List.foldl_nil]
      have := addAlphas8_sum (k := 3) hf hcb (by omega) (addAlphas8_sum (k := 2) hf hcb (by omega)
        (addAlphas8_sum (k := 1) hf hcb (by omega) (addAlphas8_sum (k := 0) hf hcb (by omega) hs)))
      convert this using 1
      unfold alphaSum
      rw [hc]
      simp only [Finset.sum_range_succ, Finset.sum_range_zero]
      norm_num
      ring) hb hasSum_zero
  have s2 := fold_alphaSum (HS := HasSum32) (B := 255) (m := 4) (k := 1) (first := first) (by omega)
    (step := fun s c => addAlphas8 first c s 0) (by
      intro s T c hc hcb hs
      have := addAlphas8_sum (k := 0) hf hcb (by omega) hs
      convert this using 1
      unfold alphaSum
      rw [hc]
      norm_num) (mem_chunksRemainder hb (n := 64)) s1
  have s3 := tail_sum (first := first) (hsum32_of s2) (mem_chunksRemainder (mem_chunksRemainder hb (n := 64)) (n := 16))
  refine ⟨_, s3, ?_⟩
  have r1 := alphaSum_split first (m := 16) row
  have r2 := alphaSum_split first (m := 4) (chunksRemainder 64 row)
  rw [rem_take (chunksRemainder_mod (m := 4) (chunksRemainder_mod (m := 16) h4))]
  norm_num at r1 r2 ⊢
  omega

theorem avxAlphaRow8_ok : RowSumOK 255 1 avxAlphaRow8 := by
  intro first row hf hb h4
  unfold avxAlphaRow8
  dsimp only
  have s1 := fold_alphaSum (σ := Reg2) (HS := fun s T => ∃ U V, HasSum32 s.1 U ∧ HasSum32 s.2 V ∧ U + V = T) (B := 255) (m := 32) (k := 1) (first := first) (by omega)
    (step := fun s c => [0, 1, 2, 3].foldl (addAlphas8Avx first c) s) (by
      rintro s T c hc hcb ⟨U, V, hU, hV, hUV⟩
      simp only [List.foldl_cons, List.foldl_nil, addAlphas8Avx]
      have h1 := addAlphas8_sum (k := 6) hf hcb (by omega) (addAlphas8_sum (k := 4) hf hcb (by omega)
        (addAlphas8_sum (k := 2) hf hcb (by omega) (addAlphas8_sum (k := 0) hf hcb (by omega) hU)))
      have h2 := addAlphas8_sum (k := 7) hf hcb (by omega) (addAlphas8_sum (k := 5) hf hcb (by omega)
        (addAlphas8_sum (k := 3) hf hcb (by omega) (addAlphas8_sum (k := 1) hf hcb (by omega) hV)))
      refine ⟨_, _, h1, h2, ?_⟩
      unfold alphaSum
      rw [hc, ← hUV]
      simp only [Finset.sum_range_succ, Finset.sum_range_zero]
      norm_num
      ring) hb (s := (setzero, setzero)) (T := 0) ⟨0, 0, hasSum_zero, hasSum_zero, rfl⟩
  have s2 := fold_alphaSum (σ := Reg2) (HS := fun s T => ∃ U V, HasSum32 s.1 U ∧ HasSum32 s.2 V ∧ U + V = T) (B := 255) (m := 8) (k := 1) (first := first) (by omega)
    (step := fun s c => addAlphas8Avx first c s 0) (by
      rintro s T c hc hcb ⟨U, V, hU, hV, hUV⟩
      simp only [addAlphas8Avx]
      have h1 := addAlphas8_sum (k := 0) hf hcb (by omega) hU
      have h2 := addAlphas8_sum (k := 1) hf hcb (by omega) hV
      refine ⟨_, _, h1, h2, ?_⟩
      unfold alphaSum
      rw [hc, ← hUV]
      simp only [Finset.sum_range_succ, Finset.sum_range_zero]
      norm_num
      ring) (mem_chunksRemainder hb (n := 128)) s1
  obtain ⟨U, V, hU, hV, hUV⟩ := s2
  have s3 := fold_alphaSum (HS := HasSum32) (B := 255) (m := 4) (k := 1) (first := first) (by omega)
    (step := fun s c => addAlphas8 first c s 0) (by
      intro s T c hc hcb hs
      have := addAlphas8_sum (k := 0) hf hcb (by omega) hs
      convert this using 1
      unfold alphaSum
      rw [hc]
      norm_num) (mem_chunksRemainder (mem_chunksRemainder hb (n := 128)) (n := 32)) (hasSum_add hU hV)
  have s4 := tail_sum (first := first) (hsum32_of s3)
    (mem_chunksRemainder (mem_chunksRemainder (mem_chunksRemainder hb (n := 128)) (n := 32)) (n := 16))
  refine ⟨_, s4, ?_⟩
  have r1 := alphaSum_split first (m := 32) row
  have r2 := alphaSum_split first (m := 8) (chunksRemainder 128 row)
  have r3 := alphaSum_split first (m := 4) (chunksRemainder 32 (chunksRemainder 128 row))
  rw [rem_take (chunksRemainder_mod (m := 4) (chunksRemainder_mod (m := 8) (chunksRemainder_mod (m := 32) h4)))]
  norm_num at r1 r2 r3 hUV ⊢
  omega

/-! ### RGBA16 -/

theorem regAt16_eq {l : List ℕ} {k : ℕ} (h : 8 * k + 8 ≤ l.length) :
    regAt16 l k = lanes8 fun i => ((l.getD (8 * k + i) 0 : ℕ) : ℤ) := by
  unfold regAt16 lanes8
  rw [slice_eq_map_range 0 h]
  simp [Function.comp_def]

theorem bytes16_u16 {v : ℕ} (h : v < 65536) : bytes16 (v : ℤ) = [v % 256, v / 256] := by
  unfold bytes16
  rw [show ((v : ℤ) % 256).toNat = v % 256 by omega, show ((v : ℤ) / 256 % 256).toNat = v / 256 by omega]

theorem bytes32_xor {v w : ℕ} (hv : v < 65536) (hw : w < 65536) :
    bytes32 ((v ^^^ w : ℕ) : ℤ) = [v % 256 ^^^ w % 256, v / 256 ^^^ w / 256, 0, 0] := by
  have hx : v ^^^ w < 65536 := Nat.xor_lt_two_pow (n := 16) hv hw
  rw [bytes32_u16 (by omega) (by omega), bytes16_u16 hx]
  have h1 : (v ^^^ w) % 256 = v % 256 ^^^ w % 256 := by
    have := Nat.xor_mod_two_pow (a := v) (b := w) (n := 8)
    simpa using this
  have h2 : (v ^^^ w) / 256 = v / 256 ^^^ w / 256 := by
    have := Nat.shiftRight_xor_distrib (a := v) (b := w) (i := 8)
    simpa [Nat.shiftRight_eq_div_pow] using this
  rw [h1, h2]
  rfl

theorem addAlphas16_sum {first : ℕ} {chunk : List ℕ} {j k : ℕ} {s : Reg} {T : ℕ} (hf : first ≤ 65535)
    (hc : ∀ v ∈ chunk, v ≤ 65535) (hj : 8 * j + 8 ≤ chunk.length) (hk : 8 * k + 8 ≤ chunk.length) (hs : HasSum32 s T) :
    HasSum32 (addAlphas16 first (regAt16 chunk j) (regAt16 chunk k) s)
      (T + ((chunk.getD (8 * j + 3) 0 ^^^ first) + (chunk.getD (8 * j + 7) 0 ^^^ first) +
        (chunk.getD (8 * k + 3) 0 ^^^ first) + (chunk.getD (8 * k + 7) 0 ^^^ first))) := by
  unfold addAlphas16
  apply hasSum_add hs
  rw [regAt16_eq hj, regAt16_eq hk]
  have hb : ∀ i, chunk.getD i 0 < 65536 := fun i => by have := getD_le_of_forall hc i; omega
  refine ⟨fun i => (((if i = 0 then chunk.getD (8 * j + 3) 0 else if i = 1 then chunk.getD (8 * k + 3) 0
    else if i = 2 then chunk.getD (8 * j + 7) 0 else chunk.getD (8 * k + 7) 0) ^^^ first : ℕ) : ℤ), ?_, ?_⟩
  · have hs : ∀ o : ℕ, shuffle8 (lanes8 fun i => ((chunk.getD (o + i) 0 : ℕ) : ℤ)) alphaMask16 =
        bytes16 ((chunk.getD (o + 3) 0 : ℕ) : ℤ) ++ [0, 0] ++ bytes16 ((chunk.getD (o + 7) 0 : ℕ) : ℤ) ++
          [0, 0, 0, 0, 0, 0, 0, 0, 0, 0] := fun o => rfl
    rw [hs, hs]
    unfold set1epi32
    have hfb : bytes32 (first : ℤ) = [first % 256, first / 256, 0, 0] := by
      rw [bytes32_u16 (by omega) (by omega), bytes16_u16 (by omega)]; rfl
    rw [hfb, bytes16_u16 (hb _), bytes16_u16 (hb _), bytes16_u16 (hb _), bytes16_u16 (hb _)]
    show _ = bytes32 ((chunk.getD (8 * j + 3) 0 ^^^ first : ℕ) : ℤ) ++ (bytes32 ((chunk.getD (8 * k + 3) 0 ^^^ first : ℕ) : ℤ) ++
        (bytes32 ((chunk.getD (8 * j + 7) 0 ^^^ first : ℕ) : ℤ) ++
          (bytes32 ((chunk.getD (8 * k + 7) 0 ^^^ first : ℕ) : ℤ) ++ [])))
    rw [bytes32_xor (hb _) (by omega), bytes32_xor (hb _) (by omega), bytes32_xor (hb _) (by omega), bytes32_xor (hb _) (by omega)]
    rfl
  · simp only [if_true]
    norm_num
    congr 1
    ring

theorem sseAlphaRow16_ok : RowSumOK 65535 2 sseAlphaRow16 := by
  intro first row hf hb h4
  unfold sseAlphaRow16
  dsimp only
  have s1 := fold_alphaSum (HS := HasSum32) (B := 65535) (m := 8) (k := 1) (first := first) (by omega)
    (step := fun s c => addAlphas16 first (regAt16 c 2) (regAt16 c 3) (addAlphas16 first (regAt16 c 0) (regAt16 c 1) s)) (by
      intro s T c hc hcb hs
      have := addAlphas16_sum (j := 2) (k := 3) hf hcb (by omega) (by omega)
        (addAlphas16_sum (j := 0) (k := 1) hf hcb (by omega) (by omega) hs)
      convert this using 1
      unfold alphaSum
      rw [hc]
      simp only [Finset.sum_range_succ, Finset.sum_range_zero]
      norm_num
      ring) hb hasSum_zero
  have s2 := fold_alphaSum (HS := HasSum32) (B := 65535) (m := 2) (k := 2) (first := first) (by omega)
    (step := fun s c => addAlphas16 first (regAt16 c 0) (regAt16 c 0) s) (by
      intro s T c hc hcb hs
      have := addAlphas16_sum (j := 0) (k := 0) hf hcb (by omega) (by omega) hs
      convert this using 1
      unfold alphaSum
      rw [hc]
      simp only [Finset.sum_range_succ, Finset.sum_range_zero]
      norm_num
      ring) (mem_chunksRemainder hb (n := 32)) s1
  have s3 := tail_sum (first := first) (hsum32_of s2) (mem_chunksRemainder (mem_chunksRemainder hb (n := 32)) (n := 8))
  refine ⟨_, s3, ?_⟩
  have r1 := alphaSum_split first (m := 8) row
  have r2 := alphaSum_split first (m := 2) (chunksRemainder 32 row)
  rw [rem_take (chunksRemainder_mod (m := 2) (chunksRemainder_mod (m := 8) h4))]
  norm_num at r1 r2 ⊢
  omega

theorem avxAlphaRow16_ok : RowSumOK 65535 2 avxAlphaRow16 := by
  intro first row hf hb h4
  unfold avxAlphaRow16
  dsimp only
  have s1 := fold_alphaSum (σ := Reg2) (HS := fun s T => ∃ U V, HasSum32 s.1 U ∧ HasSum32 s.2 V ∧ U + V = T) (B := 65535) (m := 16) (k := 1) (first := first) (by omega)
    (step := fun (s : Reg2) c =>
    (addAlphas16 first (regAt16 c 4) (regAt16 c 6) (addAlphas16 first (regAt16 c 0) (regAt16 c 2) s.1),
      addAlphas16 first (regAt16 c 5) (regAt16 c 7) (addAlphas16 first (regAt16 c 1) (regAt16 c 3) s.2))) (by
      rintro s T c hc hcb ⟨U, V, hU, hV, hUV⟩
      have h1 := addAlphas16_sum (j := 4) (k := 6) hf hcb (by omega) (by omega)
        (addAlphas16_sum (j := 0) (k := 2) hf hcb (by omega) (by omega) hU)
      have h2 := addAlphas16_sum (j := 5) (k := 7) hf hcb (by omega) (by omega)
        (addAlphas16_sum (j := 1) (k := 3) hf hcb (by omega) (by omega) hV)
      refine ⟨_, _, h1, h2, ?_⟩
      unfold alphaSum
      rw [hc, ← hUV]
      simp only [Finset.sum_range_succ, Finset.sum_range_zero]
      norm_num
      ring) hb (s := (setzero, setzero)) (T := 0) ⟨0, 0, hasSum_zero, hasSum_zero, rfl⟩
  have s2 := fold_alphaSum (σ := Reg2) (HS := fun s T => ∃ U V, HasSum32 s.1 U ∧ HasSum32 s.2 V ∧ U + V = T) (B := 65535) (m := 4) (k := 2) (first := first) (by omega)
    (step := fun (s : Reg2) c =>
    (addAlphas16 first (regAt16 c 0) (regAt16 c 0) s.1, addAlphas16 first (regAt16 c 1) (regAt16 c 1) s.2)) (by
      rintro s T c hc hcb ⟨U, V, hU, hV, hUV⟩
      have h1 := addAlphas16_sum (j := 0) (k := 0) hf hcb (by omega) (by omega) hU
      have h2 := addAlphas16_sum (j := 1) (k := 1) hf hcb (by omega) (by omega) hV
      refine ⟨_, _, h1, h2, ?_⟩
      unfold alphaSum
      rw [hc, ← hUV]
      simp only [Finset.sum_range_succ, Finset.sum_range_zero]
      norm_num
      ring) (mem_chunksRemainder hb (n := 64)) s1
  obtain ⟨U, V, hU, hV, hUV⟩ := s2
  have s4 := tail_sum (first := first) (hsum32_of (hasSum_add hU hV))
    (mem_chunksRemainder (mem_chunksRemainder hb (n := 64)) (n := 16))
  refine ⟨_, s4, ?_⟩
  have r1 := alphaSum_split first (m := 16) row
  have r2 := alphaSum_split first (m := 4) (chunksRemainder 64 row)
  rw [rem_take (chunksRemainder_mod (m := 4) (chunksRemainder_mod (m := 16) h4))]
  norm_num at r1 r2 hUV ⊢
  omega

theorem remainder_nil {n : ℕ} {row : List ℕ} (h : row.length % n = 0) : chunksRemainder n row = [] := by
  unfold chunksRemainder
  rw [List.drop_eq_nil_iff]
  have := Nat.div_add_mod' row.length n
  omega

theorem take_full {n : ℕ} {row : List ℕ} (h : row.length % n = 0) : row.take (row.length / n * n) = row := by
  rw [List.take_of_length_le]
  have := Nat.div_add_mod' row.length n
  omega

theorem chunksExact_nil (n : ℕ) : chunksExact n ([] : List ℕ) = [] := by simp [chunksExact]
theorem chunksRemainder_nil (n : ℕ) : chunksRemainder n ([] : List ℕ) = [] := by simp [chunksRemainder]
theorem alphaTail_nil (first : ℕ) (h : ℤ) : alphaTail first h [] = h := by simp [alphaTail, chunksExact_nil]

/-- Rows of whole main chunks are summed exactly. -/
theorem sseAlphaRow16_exact {first : ℕ} {row : List ℕ} (hf : first ≤ 65535) (hb : ∀ v ∈ row, v ≤ 65535)
    (h : row.length % 32 = 0) : sseAlphaRow16 first row = i32 (alphaSum first row : ℕ) := by
  unfold sseAlphaRow16
  dsimp only
  rw [remainder_nil h, chunksRemainder_nil, alphaTail_nil, chunksExact_nil, List.foldl_nil]
  have s1 := fold_alphaSum (HS := HasSum32) (B := 65535) (m := 8) (k := 1) (first := first) (by omega)
    (step := fun s c => addAlphas16 first (regAt16 c 2) (regAt16 c 3) (addAlphas16 first (regAt16 c 0) (regAt16 c 1) s)) (by
      intro s T c hc hcb hs
      have := addAlphas16_sum (j := 2) (k := 3) hf hcb (by omega) (by omega)
        (addAlphas16_sum (j := 0) (k := 1) hf hcb (by omega) (by omega) hs)
      convert this using 1
      unfold alphaSum
      rw [hc]
      simp only [Finset.sum_range_succ, Finset.sum_range_zero]
      norm_num
      ring) hb hasSum_zero
  rw [take_full h, Nat.zero_add, Nat.one_mul] at s1
  exact hsum32_of s1

theorem avxAlphaRow16_exact {first : ℕ} {row : List ℕ} (hf : first ≤ 65535) (hb : ∀ v ∈ row, v ≤ 65535)
    (h : row.length % 64 = 0) : avxAlphaRow16 first row = i32 (alphaSum first row : ℕ) := by
  unfold avxAlphaRow16
  dsimp only
  rw [remainder_nil h, chunksRemainder_nil, alphaTail_nil, chunksExact_nil, List.foldl_nil]
  have s1 := fold_alphaSum (σ := Reg2) (HS := fun s T => ∃ U V, HasSum32 s.1 U ∧ HasSum32 s.2 V ∧ U + V = T) (B := 65535) (m := 16) (k := 1) (first := first) (by omega)
    (step := fun (s : Reg2) c =>
    (addAlphas16 first (regAt16 c 4) (regAt16 c 6) (addAlphas16 first (regAt16 c 0) (regAt16 c 2) s.1),
      addAlphas16 first (regAt16 c 5) (regAt16 c 7) (addAlphas16 first (regAt16 c 1) (regAt16 c 3) s.2))) (by
      rintro s T c hc hcb ⟨U, V, hU, hV, hUV⟩
      have h1 := addAlphas16_sum (j := 4) (k := 6) hf hcb (by omega) (by omega)
        (addAlphas16_sum (j := 0) (k := 2) hf hcb (by omega) (by omega) hU)
      have h2 := addAlphas16_sum (j := 5) (k := 7) hf hcb (by omega) (by omega)
        (addAlphas16_sum (j := 1) (k := 3) hf hcb (by omega) (by omega) hV)
      refine ⟨_, _, h1, h2, ?_⟩
      unfold alphaSum
      rw [hc, ← hUV]
      simp only [Finset.sum_range_succ, Finset.sum_range_zero]
      norm_num
      ring) hb (s := (setzero, setzero)) (T := 0) ⟨0, 0, hasSum_zero, hasSum_zero, rfl⟩
  obtain ⟨U, V, hU, hV, hUV⟩ := s1
  rw [take_full h, Nat.zero_add, Nat.one_mul] at hUV
  rw [← hUV]
  exact hsum32_of (hasSum_add hU hV)

/-! ### images -/

theorem alphaSum_zero {first w : ℕ} {row : List ℕ} (h : row.length = w * 4) :
    alphaSum first row = 0 ↔ ∀ x, x < w → row.getD (x * 4 + 3) 0 = first := by
  unfold alphaSum
  rw [h, Nat.mul_div_cancel _ (by omega), Finset.sum_eq_zero_iff]
  simp only [Finset.mem_range, xor_eq_zero, Nat.mul_comm]

theorem alphaSum_le {first w k : ℕ} {row : List ℕ} (h : row.length = w * 4) (hf : first < 2 ^ k) (hb : ∀ v ∈ row, v < 2 ^ k) :
    alphaSum first row ≤ w * (2 ^ k - 1) := by
  unfold alphaSum
  rw [h, Nat.mul_div_cancel _ (by omega)]
  have := Finset.sum_le_card_nsmul (Finset.range w) (fun i => row.getD (4 * i + 3) 0 ^^^ first) (2 ^ k - 1) (by
    intro i _
    have hlt : row.getD (4 * i + 3) 0 < 2 ^ k := by
      rw [List.getD_eq_getElem?_getD]
      rcases hh : row[4 * i + 3]? with _ | v
      · simp
      · exact hb v (List.mem_of_getElem? hh)
    have := Nat.xor_lt_two_pow hlt hf
    omega)
  simpa using this

theorem i32_ne_zero {T : ℕ} (h : T < 2 ^ 32) : i32 (T : ℤ) ≠ 0 ↔ T ≠ 0 := by
  unfold i32
  rw [Int.bmod_def]
  push_cast
  split <;> omega

theorem alphaVariesBy_iff {rowSum : ℕ → List ℕ → ℤ} {k m w h stride : ℕ} (hr : RowSumOK (2 ^ k - 1) m rowSum)
    {store : List ℕ} (hl : store.length = stride * h)
    (hw : w * 4 ≤ stride) (hw0 : 0 < w) (hh0 : 0 < h) (hb : ∀ v ∈ store, v < 2 ^ k) (hJ : m * (w * (2 ^ k - 1)) < 2 ^ 32) :
    alphaVariesBy rowSum store w stride = true ↔
      ∃ y x y' x', y < h ∧ x < w ∧ y' < h ∧ x' < w ∧
        alphaAt store stride y x ≠ alphaAt store stride y' x' := by
  have hs0 : 0 < stride := by omega
  have hne : store ≠ [] := by
    intro h; rw [h] at hl; simp at hl; rcases hl with h | h <;> omega
  have hrows : store.length / stride = h := by rw [hl, Nat.mul_div_cancel_left _ hs0]
  unfold alphaVariesBy
  rw [if_neg hne]
  have hlt : ∀ i, store.getD i 0 < 2 ^ k := by
    intro i
    rw [List.getD_eq_getElem?_getD]
    rcases Nat.lt_or_ge i store.length with hi | hi
    · rw [List.getElem?_eq_getElem hi]; exact hb _ (List.getElem_mem hi)
    · rw [List.getElem?_eq_none hi]; simp
  have hval : ∀ y x, x < w → (((store.drop (y * stride)).take stride).take (w * 4)).getD (x * 4 + 3) 0 = alphaAt store stride y x := by
    intro y x hx
    rw [List.getD_eq_getElem?_getD, List.getElem?_take, if_pos (by omega), chunk_get (by omega)]
    simp only [alphaAt, pxD, sample, Nat.add_assoc]
  have hfirst : store.getD 3 0 = alphaAt store stride 0 0 := by
    rw [List.getD_eq_getElem?_getD]; simp [alphaAt, pxD, sample]
  have hrow : ∀ y, y < h → ((rowSum (store.getD 3 0) (((store.drop (y * stride)).take stride).take (w * 4)) != 0) = true ↔
      ∃ x, x < w ∧ alphaAt store stride y x ≠ alphaAt store stride 0 0) := by
    intro y hy
    have hlen : (((store.drop (y * stride)).take stride).take (w * 4)).length = w * 4 := by
      rw [List.length_take, chunk_len hl hy]; omega
    have hbb : ∀ v ∈ ((store.drop (y * stride)).take stride).take (w * 4), v < 2 ^ k := fun v hv =>
      hb v (List.mem_of_mem_drop (List.mem_of_mem_take (List.mem_of_mem_take hv)))
    obtain ⟨T, t1, t2, t3⟩ := hr (store.getD 3 0) (((store.drop (y * stride)).take stride).take (w * 4))
      (by have := hlt 3; omega) (fun v hv => by have := hbb v hv; omega) (by omega)
    have hle := alphaSum_le hlen (hlt 3) hbb
    have hT : T < 2 ^ 32 := by
      have := Nat.mul_le_mul_left m hle
      omega
    rw [bne_iff_ne, t1, i32_ne_zero hT]
    have hz : T ≠ 0 ↔ alphaSum (store.getD 3 0) (((store.drop (y * stride)).take stride).take (w * 4)) ≠ 0 := by
      constructor
      · intro h1 h2; rw [h2] at t3; omega
      · intro h1; omega
    rw [hz, Ne, alphaSum_zero hlen]
    push Not
    constructor
    · rintro ⟨x, hx, hd⟩; rw [hval y x hx, hfirst] at hd; exact ⟨x, hx, hd⟩
    · rintro ⟨x, hx, hd⟩; refine ⟨x, hx, ?_⟩; rw [hval y x hx, hfirst]; exact hd
  rw [List.any_eq_true]
  unfold chunksExact
  constructor
  · rintro ⟨row, hm, hd⟩
    rw [List.mem_map, hrows] at hm
    obtain ⟨y, hy, rfl⟩ := hm
    have hy := List.mem_range.1 hy
    obtain ⟨x, hx, hd⟩ := (hrow y hy).1 hd
    exact ⟨y, x, 0, 0, hy, hx, hh0, hw0, hd⟩
  · rintro ⟨y, x, y', x', hy, hx, hy', hx', hd⟩
    by_cases h1 : alphaAt store stride y x = alphaAt store stride 0 0
    · refine ⟨(store.drop (y' * stride)).take stride, List.mem_map.2 ⟨y', List.mem_range.2 (by omega), rfl⟩,
        (hrow y' hy').2 ⟨x', hx', ?_⟩⟩
      rw [← h1]; exact hd.symm
    · exact ⟨(store.drop (y * stride)).take stride, List.mem_map.2 ⟨y, List.mem_range.2 (by omega), rfl⟩,
        (hrow y hy).2 ⟨x, hx, h1⟩⟩

end PicScale
