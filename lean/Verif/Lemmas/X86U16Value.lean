import Verif.Lemmas.X86U16Pass
import Verif.Lemmas.X86Resize

/-! The values of the ≤ 12-bit handlers when no accumulator leaves its range. -/

namespace PicScale

open Spec Finset

theorem two_pow_le12 {d : ℕ} (hd : d ≤ 12) : 2 ^ d ≤ 4096 :=
  le_trans (Nat.pow_le_pow_right (by norm_num) hd) (by norm_num)

theorem two_pow_le16 {d : ℕ} (hd : d ≤ 16) : 2 ^ d ≤ 65536 :=
  le_trans (Nat.pow_le_pow_right (by norm_num) hd) (by norm_num)

theorem cast_two_pow (d : ℕ) : ((2 ^ d - 1 : ℕ) : ℤ) = 2 ^ d - 1 := by
  have : 1 ≤ 2 ^ d := Nat.one_le_two_pow
  push_cast [this]
  ring

theorem lb16Val_eq {d : ℕ} (hd : d ≤ 12) {a : ℤ} (h : a < 2 ^ 30) :
    lb16Val d a = saturateNarrow (2 ^ d - 1) a := by
  have h2 : a >>> 15 < 32768 := by
    rw [Int.shiftRight_eq_div_pow]; norm_num; omega
  have hp := two_pow_le12 hd
  have h1 : 1 ≤ 2 ^ d := Nat.one_le_two_pow
  unfold lb16Val
  rw [← cast_two_pow]
  have hm : 2 ^ d - 1 < 4096 := by omega
  generalize 2 ^ d - 1 = m at *
  rw [i16_eq_self (v := max 0 (min (a >>> 15) 65535)) (by omega) (by omega), i16_eq_self (v := (m : ℤ)) (by omega) (by omega)]
  unfold u16 saturateNarrow
  omega

section
variable {d n : ℕ} {w : List ℤ} {s : ℕ → ℕ}

theorem lb_sums (hd : d ≤ 12) (hw : ∀ k, k < n → -32768 ≤ w.getD k 0 ∧ w.getD k 0 ≤ 32767)
    (hs : ∀ k, k < n → s k ≤ 2 ^ d - 1)
    (hO : (∑ k ∈ range n, |w.getD k 0|) * ((2 ^ d - 1 : ℕ) : ℤ) + 2 ^ 14 < 2 ^ 30) :
    acc16 w s n = 16384 + wsum n (fun k => w.getD k 0) (fun k => (s k : ℤ)) ∧
      accTail w s n = 16384 + wsum n (fun k => w.getD k 0) (fun k => (s k : ℤ)) ∧
      16384 + wsum n (fun k => w.getD k 0) (fun k => (s k : ℤ)) < 2 ^ 30 := by
  have hp := two_pow_le12 hd
  have habs := wsum_abs_le (n := n) (w := fun k => w.getD k 0) (p := fun k => (s k : ℤ)) (M := 2 ^ d - 1)
    (fun k hk => ⟨by positivity, by have := hs k hk; exact_mod_cast this⟩)
  have h := abs_le.1 habs
  generalize (∑ k ∈ range n, |w.getD k 0|) * ((2 ^ d - 1 : ℕ) : ℤ) = M at *
  have e : wsum n (fun k => i16 (w.getD k 0)) (fun k => i16 (s k : ℤ)) =
      wsum n (fun k => w.getD k 0) (fun k => (s k : ℤ)) := by
    apply wsum_congr
    · intro k hk; exact i16_eq_self (hw k hk).1 (by have := (hw k hk).2; omega)
    · intro k hk
      have := hs k hk
      exact i16_eq_self (by omega) (by omega)
  refine ⟨?_, ?_, by omega⟩
  · unfold acc16
    rw [e]
    exact i32_eq_self (by omega) (by omega)
  · unfold accTail
    exact i32_eq_self (by omega) (by omega)

theorem lb_round (hd : d ≤ 12) (hw : ∀ k, k < n → -32768 ≤ w.getD k 0 ∧ w.getD k 0 ≤ 32767)
    (hs : ∀ k, k < n → s k ≤ 2 ^ d - 1)
    (hO : (∑ k ∈ range n, |w.getD k 0|) * ((2 ^ d - 1 : ℕ) : ℤ) + 2 ^ 14 < 2 ^ 30) :
    lb16Val d (acc16 w s n) = fixedRound (2 ^ d - 1) n (fun k => w.getD k 0) s ∧
      saturateNarrow (2 ^ d - 1) (accTail w s n) = fixedRound (2 ^ d - 1) n (fun k => w.getD k 0) s := by
  obtain ⟨h1, h2, h3⟩ := lb_sums hd hw hs hO
  rw [h1, h2, lb16Val_eq hd h3, saturateNarrow_round]
  exact ⟨rfl, rfl⟩

end

theorem fixedRound_congr {hi n : ℕ} {w w' : ℕ → ℤ} {s s' : ℕ → ℕ} (hw : ∀ k, k < n → w k = w' k)
    (hs : ∀ k, k < n → s k = s' k) : fixedRound hi n w s = fixedRound hi n w' s' := by
  unfold fixedRound
  congr 2
  exact wsum_congr hw fun k hk => by rw [hs k hk]

theorem fixedFloor_congr {hi n : ℕ} {w w' : ℕ → ℤ} {s s' : ℕ → ℕ} (hw : ∀ k, k < n → w k = w' k)
    (hs : ∀ k, k < n → s k = s' k) : fixedFloor hi n w s = fixedFloor hi n w' s' := by
  unfold fixedFloor
  congr 2
  exact wsum_congr hw fun k hk => by rw [hs k hk]

theorem fixedRound_le (hi n : ℕ) (w : ℕ → ℤ) (s : ℕ → ℕ) : fixedRound hi n w s ≤ hi := clamp_le _ _
theorem fixedFloor_le (hi n : ℕ) (w : ℕ → ℤ) (s : ℕ → ℕ) : fixedFloor hi n w s ≤ hi := clamp_le _ _

/-- Rounding to nearest gives the truncated value or one more. -/
theorem fixedRound_floor (hi n : ℕ) (w : ℕ → ℤ) (s : ℕ → ℕ) :
    fixedFloor hi n w s ≤ fixedRound hi n w s ∧ fixedRound hi n w s ≤ fixedFloor hi n w s + 1 := by
  unfold fixedRound fixedFloor fixRound fixFloor clamp
  generalize ((wsum n w fun k => (s k : ℤ) : ℤ) : ℚ) / 32768 = v
  have h1 : ⌊v⌋ ≤ ⌊v + 1 / 2⌋ := Int.floor_le_floor (by linarith)
  have h2 : ⌊v + 1 / 2⌋ ≤ ⌊v⌋ + 1 := by
    rw [← Int.floor_add_one]
    exact Int.floor_le_floor (by linarith)
  omega

/-- The group size of the vertical handler on a CPU with vector instructions. -/
def groupOf (cpu : Cpu) : ℕ := if cpu.avx2 then 32 else 16

theorem rowW_getD {W : Type} [Zero W] (fw : FilterWeights W) (y k : ℕ) : (rowW fw y).getD k 0 = fw.weight y k := by
  simp [rowW, FilterWeights.weight, List.getD_eq_getElem?_getD, List.getElem?_drop]

/-- The vertical pass up to 12 bits. -/
theorem vvX86_lb {cpu : Cpu} {fma fused : Bool} {N d : ℕ} (hd : d ≤ 12) {fw : FilterWeights ℚ} {inn out : ℕ}
    (hT : ValidTable fw inn out) (hO : PlainShape fw out)
    (h30 : NoOverflow30At (numericalApproximation F32.rnd fw) out (2 ^ d - 1))
    {width y q : ℕ} (hy : y < out) {P : ℕ → ℕ → ℕ} (hP : ∀ y q, P y q ≤ 2 ^ d - 1) :
    vvX86 cpu fma fused N d fw width y q P =
      if cpu.avx2 ∨ cpu.sse41 then
        fixedRound (2 ^ d - 1) (fw.bound y).size (fun k => (numericalApproximation F32.rnd fw).weight y k)
          (fun k => P ((fw.bound y).start + k) (readColumn (groupOf cpu) (width * N) q))
      else fixedFloor (2 ^ d - 1) (fw.bound y).size (fun k => (numericalApproximation F32.rnd fw).weight y k)
          (fun k => P ((fw.bound y).start + k) q) := by
  have h12 : ¬ 12 < d := by omega
  have hq := hO.q_valid (ρ := F32.rnd) hT
  have hW := q_i16 hO hT
  have hlen := hq.weights_len
  have hle := hq.size_le y hy
  have hal : (y + 1) * (numericalApproximation F32.rnd fw).alignedSize ≤
      out * (numericalApproximation F32.rnd fw).alignedSize := Nat.mul_le_mul_right _ hy
  rw [Nat.add_mul] at hal
  have key : ∀ q', lb16Val d (acc16 (rowW (numericalApproximation F32.rnd fw) y) (colOf fw P y q') (fw.bound y).size) =
        fixedRound (2 ^ d - 1) (fw.bound y).size (fun k => (numericalApproximation F32.rnd fw).weight y k) (colOf fw P y q') ∧
      saturateNarrow (2 ^ d - 1) (accTail (rowW (numericalApproximation F32.rnd fw) y) (colOf fw P y q') (fw.bound y).size) =
        fixedRound (2 ^ d - 1) (fw.bound y).size (fun k => (numericalApproximation F32.rnd fw).weight y k) (colOf fw P y q') := by
    intro q'
    have := lb_round (d := d) (n := (fw.bound y).size) (w := rowW (numericalApproximation F32.rnd fw) y) (s := colOf fw P y q') hd
      (by
        intro k hk
        apply hW
        have hb : (numericalApproximation F32.rnd fw).bound y = fw.bound y := rfl
        rw [hb] at hle
        unfold rowW
        rw [List.getD_eq_getElem?_getD, List.getElem?_drop, List.getElem?_eq_getElem (by omega)]
        exact List.getElem_mem _)
      (fun k _ => hP _ _)
      (by
        have := h30 y hy
        simp only [rowW_getD]
        exact this)
    simpa only [rowW_getD] using this
  unfold vvX86
  dsimp only
  rw [if_neg h12]
  by_cases havx : cpu.avx2 = true
  · rw [if_pos havx, if_pos (Or.inl havx)]
    unfold groupOf columnVal
    dsimp only
    rw [if_pos havx, (key _).1, (key _).2, ite_self]
    rfl
  · rw [if_neg havx]
    by_cases hsse : cpu.sse41 = true
    · rw [if_pos hsse, if_pos (Or.inr hsse)]
      unfold groupOf columnVal
      dsimp only
      rw [if_neg havx, (key _).1, (key _).2, ite_self]
      rfl
    · rw [if_neg hsse, if_neg (by tauto)]
      have hp := two_pow_le12 hd
      have habs := wsum_abs_le (n := (fw.bound y).size) (w := fun k => (numericalApproximation F32.rnd fw).weight y k)
        (p := fun k => (colOf fw P y q k : ℤ)) (M := 2 ^ d - 1)
        (fun k hk => ⟨by positivity, by have : colOf fw P y q k ≤ 2 ^ d - 1 := hP _ _; exact_mod_cast this⟩)
      have h := abs_le.1 habs
      have h3 := h30 y hy
      rw [na_bound] at h3
      rw [i32_eq_self (by omega) (by omega), saturateNarrow_floor]
      rfl

/-- The horizontal pass up to 12 bits. -/
theorem hvX86_lb {cpu : Cpu} {fma fused : Bool} {N d : ℕ} (hd : d ≤ 12) {fw : FilterWeights ℚ} {inn out : ℕ}
    (hT : ValidTable fw inn out) (hO : PlainShape fw out)
    (h30 : NoOverflow30At (numericalApproximation F32.rnd fw) out (2 ^ d - 1))
    {H y x c : ℕ} (hx : x < out) {p : ℕ → ℕ} (hp : ∀ q, p q ≤ 2 ^ d - 1) :
    hvX86 cpu fma fused N d fw H y x c p =
      fixedRound (2 ^ d - 1) (fw.bound x).size (fun k => (numericalApproximation F32.rnd fw).weight x k)
        (fun k => p (((fw.bound x).start + k) * N + c)) := by
  have h12 : ¬ 12 < d := by omega
  have hq := hO.q_valid (ρ := F32.rnd) hT
  have hW := q_i16 hO hT
  have hker : ∀ k, k < (fw.bound x).size → ((numericalApproximation F32.rnd fw).kernel x).getD k 0 =
      (numericalApproximation F32.rnd fw).weight x k := fun k hk => kernel_getD_lt hq hx hk
  have hle := hq.size_le x hx
  have hkl := hq.shape.kernel_length hx
  unfold hvX86
  dsimp only
  rw [if_neg h12]
  split_ifs with h4
  · obtain ⟨rfl, _⟩ := h4
    unfold lbH
    rw [(lb_round hd _ _ _).1]
    · exact fixedRound_congr hker fun _ _ => rfl
    · intro k hk
      rw [hker k hk]
      apply hW
      have hal : (x + 1) * (numericalApproximation F32.rnd fw).alignedSize ≤
          out * (numericalApproximation F32.rnd fw).alignedSize := Nat.mul_le_mul_right _ hx
      rw [Nat.add_mul] at hal
      have hlen := hq.weights_len
      have hb : (numericalApproximation F32.rnd fw).bound x = fw.bound x := rfl
      rw [hb] at hle
      unfold FilterWeights.weight
      rw [List.getD_eq_getElem?_getD, List.getElem?_eq_getElem (by omega)]
      exact List.getElem_mem _
    · intro k _; exact hp _
    · have := h30 x hx
      rw [na_bound] at this
      rw [sum_congr rfl (fun k hk => by rw [hker k (by simpa using hk)])]
      exact this
  · have habs := wsum_abs_le (n := (fw.bound x).size) (w := fun k => (numericalApproximation F32.rnd fw).weight x k)
        (p := fun k => (p (((fw.bound x).start + k) * N + c) : ℤ)) (M := 2 ^ d - 1)
        (fun k hk => ⟨by positivity, by have := hp (((fw.bound x).start + k) * N + c); exact_mod_cast this⟩)
    have h := abs_le.1 habs
    have h3 := h30 x hx
    rw [na_bound] at h3
    rw [i32_eq_self (by omega) (by omega), saturateNarrow_round]
    rfl

/-! ### which column is read -/

theorem readColumn16 (n : ℕ) : (∀ p, p < n → readColumn 16 n p = p) ↔ n % 16 = 0 ∨ n ≤ 4 ∨ n = 8 := by
  constructor
  · intro h
    by_contra hc
    by_cases h16 : n < 16
    · have h4 := h 4
      have h8 := h 8
      unfold readColumn tailStart at h4 h8
      interval_cases n <;> simp at h4 h8 hc
    · have := h (n / 16 * 16) (by omega)
      unfold readColumn tailStart at this
      split_ifs at this <;> omega
  · intro h p hp
    unfold readColumn tailStart
    split_ifs <;> omega

theorem readColumn32 (n : ℕ) : (∀ p, p < n → readColumn 32 n p = p) ↔ n % 32 = 0 ∨ n ≤ 4 ∨ n = 8 ∨ n = 16 := by
  constructor
  · intro h
    by_contra hc
    by_cases h16 : n < 32
    · have h4 := h 4
      have h8 := h 8
      have h16 := h 16
      unfold readColumn tailStart at h4 h8 h16
      interval_cases n <;> simp at h4 h8 h16 hc
    · have := h (n / 32 * 32) (by omega)
      unfold readColumn tailStart at this
      split_ifs at this <;> omega
  · intro h p hp
    unfold readColumn tailStart
    split_ifs <;> omega

end PicScale
