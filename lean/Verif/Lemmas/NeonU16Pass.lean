import Verif.SpecNeonU16
import Verif.Lemmas.NeonU16

/-! The passes of u16 images on NEON, as functions of the picture. -/

namespace PicScale

open Finset Spec

/-! ### narrowing -/

theorem narrowQ_le (d : ℕ) (v : ℤ) : narrowQ d v ≤ 2 ^ d - 1 := min_le_right _ _
theorem narrowH_le (d : ℕ) (v : ℚ) : narrowH d v ≤ 2 ^ d - 1 := min_le_right _ _
theorem narrowTail_le (d : ℕ) (v : ℤ) : narrowTail d v ≤ 2 ^ d - 1 := by
  unfold narrowTail
  generalize 2 ^ d - 1 = m
  omega

theorem clamp_le' (hi : ℕ) (v : ℤ) : clamp hi v ≤ hi := clamp_le _ _

theorem narrowF_eq {d : ℕ} (hd : d ≤ 16) (v : ℚ) : narrowF d v = nearestClamp d v := by
  have := two_pow_le16 hd
  have h1 : 1 ≤ 2 ^ d := Nat.one_le_two_pow
  unfold narrowF nearestClamp clamp
  have hm : 2 ^ d - 1 ≤ 65535 := by omega
  generalize 2 ^ d - 1 = m at *
  generalize ⌊v + 1 / 2⌋ = z
  omega

theorem narrowFTail_eq {d : ℕ} (v : ℚ) : narrowFTail d v = nearestClamp d v := by
  unfold narrowFTail nearestClamp clamp roundAway
  generalize 2 ^ d - 1 = m
  by_cases h : 0 ≤ v
  · rw [if_pos h]
    generalize ⌊v + 1 / 2⌋ = z
    omega
  · rw [if_neg h]
    have h1 : ⌊v + 1 / 2⌋ ≤ 0 := by
      have : ⌊v + 1 / 2⌋ < 1 := Int.floor_lt.2 (by push_cast; linarith [not_le.1 h])
      omega
    have h2 : ⌈v - 1 / 2⌉ ≤ 0 := Int.ceil_le.2 (by push_cast; linarith [not_le.1 h])
    omega

/-! ### passes -/

theorem halfWeights_valid {fw : FilterWeights ℚ} {inn out : ℕ} (h : ValidTable fw inn out) :
    ValidTable (halfWeights fw) inn out where
  bounds_len := h.bounds_len
  weights_len := by unfold halfWeights; rw [List.length_map]; exact h.weights_len
  aligned_pos := h.aligned_pos
  size_pos := h.size_pos
  size_le := h.size_le
  inside := h.inside

/-- Vertical pass of a u16 image on NEON: destination row `y`, position `q` of rows of `width * N` samples. -/
def vvNeon16 (half : Bool) (N d : ℕ) (fw : FilterWeights ℚ) (width y q : ℕ) (P : ℕ → ℕ → ℕ) : ℕ :=
  let s := colOf fw P y
  let L := List.range (fw.bound y).size
  let w := rowW (numericalApproximation F32.rnd fw) y
  if 12 < d then
    columnVal 16 (width * N) (fun q => narrowF d (tapsL tapF 0 (rowW fw y) (s q) L))
      (fun q => narrowFTail d (tapsL tapFTail 0 (rowW fw y) (s q) L)) q
  else if half then
    columnVal 16 (width * N) (fun q => narrowH d (tapsL tapH 0 (rowW (halfWeights fw) y) (s q) L))
      (fun q => narrowH d (tapsL tapH 0 (rowW (halfWeights fw) y) (s q) L)) q
  else
    columnVal 16 (width * N) (fun q => narrowQ d (tapsL tapQ NEON16_ROUNDING w (s q) L))
      (fun q => narrowTail d (tapsL tapTail NEON16_ROUNDING w (s q) L)) q

theorem verticalNeon_u16 (half : Bool) {N d : ℕ} (hN : 1 ≤ N ∧ N ≤ 4) (src dst : Image ℕ)
    (fw : FilterWeights ℚ) (hs : src.validate N = .ok ()) (hd : dst.validate N = .ok ())
    (hw : src.width = dst.width) (hdw : 0 < dst.width) (hbd : dst.bitDepth = d)
    (hT : ValidTable fw src.height dst.height) (hO : PlainShape fw dst.height) :
    ∃ out, (formatU16Neon half N).vertical src dst fw = some out ∧ SameShape out dst ∧
      PaddingKept N dst out ∧
      ∀ y x c, y < dst.height → x < dst.width → c < N →
        sample out.buffer (dst.strideOf N) N y x c = some (vvNeon16 half N d fw src.width y (x * N + c)
          (rowPos 0 src.buffer (src.strideOf N))) := by
  have hq : ValidTable (numericalApproximation F32.rnd fw) src.height dst.height := hO.q_valid hT
  simp only [formatU16Neon, hbd]
  by_cases h12 : 12 < d
  · rw [if_pos h12]
    obtain ⟨r, e1, e2, e3, e4⟩ := verticalG_raw (column := neonColumnF32 d) (fw := fw)
      (V := fun y q => vvNeon16 half N d fw src.width y q (rowPos 0 src.buffer (src.strideOf N)))
      (fun y dd hy hl hp => by
        obtain ⟨r, r1, r2, r3⟩ := neonColumnF32_ok d (dst := dd) hp
        refine ⟨r, r1, r2, fun p hp' => ?_⟩
        rw [r3 p hp', hl, colSamples_eq]
        simp only [vvNeon16, if_pos h12, hw]
        rfl) hN.1 hs hd hw hdw hT
    exact ⟨_, e1, (raw_shape hN.1 hd e2 e4).1, (raw_shape hN.1 hd e2 e4).2, fun y x c hy hx hc => e3 y x c hy hx hc⟩
  · rw [if_neg h12]
    by_cases hh : half = true
    · rw [if_pos hh]
      obtain ⟨r, e1, e2, e3, e4⟩ := verticalG_raw (column := neonColumnHalf d) (fw := halfWeights fw)
        (V := fun y q => vvNeon16 half N d fw src.width y q (rowPos 0 src.buffer (src.strideOf N)))
        (fun y dd hy hl hp => by
          obtain ⟨r, r1, r2, r3⟩ := neonColumnHalf_ok d (dst := dd) hp
          refine ⟨r, r1, r2, fun p hp' => ?_⟩
          rw [r3 p hp', hl, show (halfWeights fw).bound y = fw.bound y from rfl, colSamples_eq]
          simp only [vvNeon16, if_neg h12, if_pos hh, hw]
          rfl) hN.1 hs hd hw hdw (halfWeights_valid hT)
      exact ⟨_, e1, (raw_shape hN.1 hd e2 e4).1, (raw_shape hN.1 hd e2 e4).2, fun y x c hy hx hc => e3 y x c hy hx hc⟩
    · rw [if_neg hh]
      obtain ⟨r, e1, e2, e3, e4⟩ := verticalG_raw (column := neonColumnLb d) (fw := numericalApproximation F32.rnd fw)
        (V := fun y q => vvNeon16 half N d fw src.width y q (rowPos 0 src.buffer (src.strideOf N)))
        (fun y dd hy hl hp => by
          obtain ⟨r, r1, r2, r3⟩ := neonColumnLb_ok d (dst := dd) hp
          refine ⟨r, r1, r2, fun p hp' => ?_⟩
          rw [r3 p hp', hl, na_bound, colSamples_eq]
          simp only [vvNeon16, if_neg h12, if_neg hh, hw]
          rfl) hN.1 hs hd hw hdw hq
      exact ⟨_, e1, (raw_shape hN.1 hd e2 e4).1, (raw_shape hN.1 hd e2 e4).2, fun y x c hy hx hc => e3 y x c hy hx hc⟩

/-- Horizontal pass of a u16 image on NEON: pixel `x`, channel `c`. -/
def hvNeon16 (N d : ℕ) (fw : FilterWeights ℚ) (_H _y x c : ℕ) (p : ℕ → ℕ) : ℕ :=
  let s := fun k => p (((fw.bound x).start + k) * N + c)
  if 12 < d then h16 true d fw x s
  else if N = 4 then qH d ((numericalApproximation F32.rnd fw).kernel x) (fw.bound x) p c
  else
    saturateNarrow (2 ^ d - 1) (i32 (16384 + wsum (fw.bound x).size
      (fun k => (numericalApproximation F32.rnd fw).weight x k) (fun k => (s k : ℤ))))

theorem horizontalNeon_u16 (half : Bool) {N d : ℕ} (hN : 1 ≤ N ∧ N ≤ 4) (src dst : Image ℕ)
    (fw : FilterWeights ℚ) (hs : src.validate N = .ok ()) (hd : dst.validate N = .ok ())
    (hh : src.height = dst.height) (hsw : 0 < src.width) (hdw : 0 < dst.width) (hbd : dst.bitDepth = d)
    (hT : ValidTable fw src.width dst.width) (hO : PlainShape fw dst.width) :
    ∃ out, (formatU16Neon half N).horizontal src dst fw = some out ∧ SameShape out dst ∧
      PaddingKept N dst out ∧
      ∀ y x c, y < dst.height → x < dst.width → c < N →
        sample out.buffer (dst.strideOf N) N y x c = some (hvNeon16 N d fw dst.height y x c
          (rowPos 0 src.buffer (src.strideOf N) y)) := by
  have hq : ValidTable (numericalApproximation F32.rnd fw) src.width dst.width := hO.q_valid hT
  obtain ⟨out, o1, o2, o3, o4⟩ := (passOK_u16_raw hN true d).horizontal src dst fw hs hd hh hsw hdw hbd hT hO (fun _ _ => trivial)
  simp only [formatU16Neon, hbd]
  by_cases h12 : 12 < d
  · rw [if_pos h12]
    simp only [formatU16, hbd, if_pos h12] at o1
    refine ⟨out, o1, o2, o3, fun y x c hy hx hc => ?_⟩
    rw [o4 y x c hy hx hc]
    simp only [hvNeon16, if_pos h12, rowPos_pxD]
    rfl
  · rw [if_neg h12]
    by_cases h4 : N = 4
    · subst h4
      have e1 : (fun s ss dd ds => fixedRows4Neon 4 d s ss dd ds (numericalApproximation F32.rnd fw)) =
          fun s ss dd ds => simdRows4 4 (rgbaNeonLb16 d s) ss dd ds (numericalApproximation F32.rnd fw) := by
        funext s ss dd ds; unfold fixedRows4Neon; rw [if_pos rfl]
      have e2 : (fun s dd => fixedRowNeon 4 d s dd (numericalApproximation F32.rnd fw)) =
          fun s dd => simdRow 4 (rgbaNeonLb16 d s) dd (numericalApproximation F32.rnd fw) := by
        funext s dd; unfold fixedRowNeon; rw [if_pos rfl]
      rw [e1, e2]
      obtain ⟨r, e1, e2, e3, e4⟩ := horizontalG_raw (h1 := rgbaNeonLb16 d) (h4 := rgbaNeonLb16 d)
        (fun s offs w b h => rgbaNeonLb16_ok d h) (fun s offs w b h => rgbaNeonLb16_ok d h)
        (fun w b f g c _ hc h => qH_local d w b f g c hc h) (fun w b f g c _ hc h => qH_local d w b f g c hc h)
        (by norm_num) hs hd hh hsw hdw hq
      refine ⟨_, e1, (raw_shape (by norm_num) hd e2 e4).1, (raw_shape (by norm_num) hd e2 e4).2, ?_⟩
      intro y x c hy hx hc
      unfold sample
      rw [e3 y x c hy hx hc, ite_self]
      simp only [hvNeon16, if_neg h12, if_pos]
      rfl
    · have e1 : (fun s ss dd ds => fixedRows4Neon N d s ss dd ds (numericalApproximation F32.rnd fw)) =
          fun s ss dd ds => rows4Fixed N (2 ^ d - 1) s ss dd ds (numericalApproximation F32.rnd fw) := by
        funext s ss dd ds; unfold fixedRows4Neon; rw [if_neg h4]
      have e2 : (fun s dd => fixedRowNeon N d s dd (numericalApproximation F32.rnd fw)) =
          fun s dd => rowFixed N (2 ^ d - 1) s dd (numericalApproximation F32.rnd fw) := by
        funext s dd; unfold fixedRowNeon; rw [if_neg h4]
      rw [e1, e2]
      simp only [formatU16, hbd, if_neg h12] at o1
      refine ⟨out, o1, o2, o3, fun y x c hy hx hc => ?_⟩
      rw [o4 y x c hy hx hc]
      simp only [hvNeon16, if_neg h12, if_neg h4, rowPos_pxD]
      rfl

theorem passFun_u16Neon (half : Bool) {N : ℕ} (hN : 1 ≤ N ∧ N ≤ 4) (d : ℕ) :
    PassFun N (formatU16Neon half N) d (fun fw out => PlainShape fw out) (vvNeon16 half N d) (hvNeon16 N d) where
  vertical := fun src dst fw hs hd hw hdw hbd hT hO =>
    verticalNeon_u16 half hN src dst fw hs hd hw hdw hbd hT hO
  horizontal := fun src dst fw hs hd hh hsw hdw hbd hT hO =>
    horizontalNeon_u16 half hN src dst fw hs hd hh hsw hdw hbd hT hO
  cong_h := by
    intro fw inn out H y x c p p' hT _ hx hc h
    have hn := hT.size_pos x hx
    have hin := hT.inside x hx
    have hs : ∀ k, k < (fw.bound x).size → p (((fw.bound x).start + k) * N + c) = p' (((fw.bound x).start + k) * N + c) := by
      intro k hk
      apply h
      have : ((fw.bound x).start + k + 1) * N ≤ inn * N := Nat.mul_le_mul_right _ (by omega)
      rw [Nat.add_mul _ 1] at this
      omega
    have hall : ∀ i, i < ((fw.bound x).start + (fw.bound x).size) * N → p i = p' i := fun i hi =>
      h i (lt_of_lt_of_le hi (Nat.mul_le_mul_right _ hin))
    unfold hvNeon16
    dsimp only
    split_ifs with h1 h3
    · simp only [h16, if_pos h1]
      congr 1
      exact leftSum_congr hn (fun k hk => by rw [hs k hk]) (fun _ _ => rfl)
    · subst h3
      exact qH_local d _ _ _ _ c hc hall
    · congr 3
      exact wsum_congr (fun _ _ => rfl) fun k hk => by rw [hs k hk]

/-! ### values without overflow -/

theorem sumZ_map_range (f : ℕ → ℤ) (n : ℕ) : ((List.range n).map f).sum = ∑ k ∈ range n, f k := by
  induction n with
  | zero => rfl
  | succ n ih => rw [List.range_succ, List.map_append, List.sum_append, ih, Finset.sum_range_succ]; simp

theorem taps_noOverflow {w : List ℤ} {s : ℕ → ℕ} (L : List ℕ)
    (hw : ∀ k ∈ L, -32768 ≤ w.getD k 0 ∧ w.getD k 0 ≤ 32767) (hs : ∀ k ∈ L, s k ≤ 32767)
    (hB : 32767 + 2 * (L.map fun k => |w.getD k 0| * (s k : ℤ)).sum ≤ 2147483647) :
    tapsL tapQ NEON16_ROUNDING w s L = 32767 + 2 * (L.map fun k => w.getD k 0 * (s k : ℤ)).sum ∧
    tapsL tapTail NEON16_ROUNDING w s L = 32767 + 2 * (L.map fun k => w.getD k 0 * (s k : ℤ)).sum ∧
    |(L.map fun k => w.getD k 0 * (s k : ℤ)).sum| ≤ (L.map fun k => |w.getD k 0| * (s k : ℤ)).sum := by
  induction L using List.reverseRecOn with
  | nil => exact ⟨rfl, rfl, by simp⟩
  | append_singleton L t ih =>
    have h0 : 0 ≤ |w.getD t 0| * (s t : ℤ) := by positivity
    simp only [List.map_append, List.sum_append, List.map_cons, List.map_nil, List.sum_cons, List.sum_nil, add_zero] at hB ⊢
    obtain ⟨i1, i2, i3⟩ := ih (fun k hk => hw k (List.mem_append_left _ hk)) (fun k hk => hs k (List.mem_append_left _ hk)) (by omega)
    have hwt := hw t (by simp)
    have hst := hs t (by simp)
    have e : |w.getD t 0 * (s t : ℤ)| = |w.getD t 0| * (s t : ℤ) := by rw [abs_mul, abs_of_nonneg (a := (s t : ℤ)) (by positivity)]
    have nn : 0 ≤ (L.map fun k => |w.getD k 0| * (s k : ℤ)).sum := le_trans (abs_nonneg _) i3
    rw [tapsL_snoc, tapsL_snoc, i1, i2]
    unfold tapQ tapTail vqdmlal1
    rw [i16_eq_self (v := (s t : ℤ)) (by omega) (by omega), i16_eq_self (v := w.getD t 0) (by omega) (by omega)]
    rw [show 2 * (s t : ℤ) * w.getD t 0 = 2 * (w.getD t 0 * (s t : ℤ)) by ring]
    have a1 := abs_le.1 i3
    have a2 := abs_le.1 (le_of_eq e)
    generalize w.getD t 0 * (s t : ℤ) = z at *
    generalize |w.getD t 0| * (s t : ℤ) = az at *
    generalize (L.map fun k => w.getD k 0 * (s k : ℤ)).sum = S at *
    generalize (L.map fun k => |w.getD k 0| * (s k : ℤ)).sum = A at *
    refine ⟨?_, ?_, ?_⟩
    · rw [sat32_self (v := 2 * z) (abs_le.2 ⟨by omega, by omega⟩), sat32_self (abs_le.2 ⟨by omega, by omega⟩)]
      ring
    · rw [i32_eq_self (v := 2 * z) (by omega) (by omega), i32_eq_self (by omega) (by omega)]
      ring
    · exact abs_le.2 ⟨by omega, by omega⟩

theorem narrowQ_eq {d : ℕ} (hd : d ≤ 12) (S : ℤ) : narrowQ d (32767 + 2 * S) = clamp (2 ^ d - 1) (fixRoundDown S) := by
  have hp := two_pow_le12 hd
  have := shift_prec true S
  rw [show neonRnd true = 32767 by decide, show dbl true = 2 from rfl, show neonPrec true = 16 from rfl] at this
  unfold narrowQ clamp
  rw [this]
  have hm : 2 ^ d - 1 ≤ 4095 := by omega
  generalize 2 ^ d - 1 = m at *
  generalize fixRoundDown S = v
  omega

theorem narrowTail_eq (d : ℕ) (S : ℤ) : narrowTail d (32767 + 2 * S) = clamp (2 ^ d - 1) (fixRoundDown S) := by
  have := shift_prec true S
  rw [show neonRnd true = 32767 by decide, show dbl true = 2 from rfl, show neonPrec true = 16 from rfl] at this
  unfold narrowTail clamp
  rw [this]
  generalize 2 ^ d - 1 = m at *
  generalize fixRoundDown S = v
  omega

theorem lb_down {d n : ℕ} (hd : d ≤ 12) {w : List ℤ} {s : ℕ → ℕ} {L : List ℕ} (hL : L.Perm (List.range n))
    (hw : ∀ k, k < n → -32768 ≤ w.getD k 0 ∧ w.getD k 0 ≤ 32767) (hs : ∀ k, k < n → s k ≤ 2 ^ d - 1)
    (hO : (∑ k ∈ range n, |w.getD k 0|) * ((2 ^ d - 1 : ℕ) : ℤ) + 2 ^ 14 < 2 ^ 30) :
    narrowQ d (tapsL tapQ NEON16_ROUNDING w s L) = fixedHalfDown (2 ^ d - 1) n (fun k => w.getD k 0) s ∧
    narrowTail d (tapsL tapTail NEON16_ROUNDING w s L) = fixedHalfDown (2 ^ d - 1) n (fun k => w.getD k 0) s := by
  have hp := two_pow_le12 hd
  have mem : ∀ k ∈ L, k < n := fun k hk => by simpa using hL.mem_iff.1 hk
  have e1 : (L.map fun k => |w.getD k 0| * (s k : ℤ)).sum = ∑ k ∈ range n, |w.getD k 0| * (s k : ℤ) := by
    rw [(hL.map _).sum_eq, sumZ_map_range]
  have e2 : (L.map fun k => w.getD k 0 * (s k : ℤ)).sum = ∑ k ∈ range n, w.getD k 0 * (s k : ℤ) := by
    rw [(hL.map _).sum_eq, sumZ_map_range]
  have hle : ∑ k ∈ range n, |w.getD k 0| * (s k : ℤ) ≤ (∑ k ∈ range n, |w.getD k 0|) * ((2 ^ d - 1 : ℕ) : ℤ) := by
    rw [Finset.sum_mul]
    refine Finset.sum_le_sum fun k hk => mul_le_mul_of_nonneg_left ?_ (abs_nonneg _)
    exact_mod_cast hs k (by simpa using hk)
  obtain ⟨h1, h2, _⟩ := taps_noOverflow (w := w) (s := s) L (fun k hk => hw k (mem k hk))
    (fun k hk => by have := hs k (mem k hk); omega) (by rw [e1]; omega)
  rw [h1, h2, narrowQ_eq hd, narrowTail_eq, e2]
  exact ⟨rfl, rfl⟩

theorem fixedHalfDown_congr {hi n : ℕ} {w w' : ℕ → ℤ} {s s' : ℕ → ℕ} (hw : ∀ k, k < n → w k = w' k)
    (hs : ∀ k, k < n → s k = s' k) : fixedHalfDown hi n w s = fixedHalfDown hi n w' s' := by
  unfold fixedHalfDown
  congr 2
  exact wsum_congr hw fun k hk => by rw [hs k hk]

theorem fixedHalfDown_le (hi n : ℕ) (w : ℕ → ℤ) (s : ℕ → ℕ) : fixedHalfDown hi n w s ≤ hi := clamp_le _ _

/-- Rounding halves down and halves up: equal except for exact halves. -/
theorem fixedHalfDown_round (hi n : ℕ) (w : ℕ → ℤ) (s : ℕ → ℕ) :
    fixedHalfDown hi n w s ≤ fixedRound hi n w s ∧ fixedRound hi n w s ≤ fixedHalfDown hi n w s + 1 ∧
    ((wsum n w fun k => (s k : ℤ)) % 32768 ≠ 16384 → fixedHalfDown hi n w s = fixedRound hi n w s) := by
  unfold fixedHalfDown fixedRound
  generalize (wsum n w fun k => (s k : ℤ)) = S
  rw [fixRoundDown_eq, show fixRound S = (S + 16384) / 32768 from ?_]
  · unfold clamp
    omega
  · unfold fixRound
    rw [Int.floor_eq_iff]
    obtain ⟨q, hq⟩ : ∃ q, (S + 16384) / 32768 = q := ⟨_, rfl⟩
    rw [hq]
    have h1 : 32768 * q ≤ S + 16384 := by omega
    have h2 : S + 16384 < 32768 * q + 32768 := by omega
    have h1' : (32768 : ℚ) * q ≤ S + 16384 := by exact_mod_cast h1
    have h2' : (S : ℚ) + 16384 < 32768 * q + 32768 := by exact_mod_cast h2
    constructor <;> linarith

/-- The vertical pass up to 12 bits, fixed point. -/
theorem vvNeon16_lb {N d : ℕ} (hd : d ≤ 12) {fw : FilterWeights ℚ} {inn out : ℕ}
    (hT : ValidTable fw inn out) (hO : PlainShape fw out)
    (h30 : NoOverflow30At (numericalApproximation F32.rnd fw) out (2 ^ d - 1))
    {width y q : ℕ} (hy : y < out) {P : ℕ → ℕ → ℕ} (hP : ∀ y q, P y q ≤ 2 ^ d - 1) :
    vvNeon16 false N d fw width y q P =
      fixedHalfDown (2 ^ d - 1) (fw.bound y).size (fun k => (numericalApproximation F32.rnd fw).weight y k)
        (fun k => P ((fw.bound y).start + k) (readColumn 16 (width * N) q)) := by
  have h12 : ¬ 12 < d := by omega
  have hq := hO.q_valid (ρ := F32.rnd) hT
  have hW := q_i16 hO hT
  have hlen := hq.weights_len
  have hle := hq.size_le y hy
  have hal : (y + 1) * (numericalApproximation F32.rnd fw).alignedSize ≤
      out * (numericalApproximation F32.rnd fw).alignedSize := Nat.mul_le_mul_right _ hy
  rw [Nat.add_mul] at hal
  have key := fun q' => lb_down (d := d) (n := (fw.bound y).size) (w := rowW (numericalApproximation F32.rnd fw) y)
      (s := colOf fw P y q') hd (List.Perm.refl _)
      (by
        intro k hk
        apply hW
        have hb : (numericalApproximation F32.rnd fw).bound y = fw.bound y := rfl
        rw [hb] at hle
        unfold rowW
        rw [List.getD_eq_getElem?_getD, List.getElem?_drop, List.getElem?_eq_getElem (by omega)]
        exact List.getElem_mem _)
      (fun k _ => hP _ _)
      (by
        have := h30 y hy
        simp only [rowW_getD]
        exact this)
  simp only [rowW_getD] at key
  unfold vvNeon16
  dsimp only
  rw [if_neg h12, if_neg (by decide)]
  unfold columnVal
  dsimp only
  rw [(key _).1, (key _).2, ite_self]
  rfl

/-- The horizontal pass up to 12 bits. -/
theorem hvNeon16_lb {N d : ℕ} (hd : d ≤ 12) {fw : FilterWeights ℚ} {inn out : ℕ}
    (hT : ValidTable fw inn out) (hO : PlainShape fw out)
    (h30 : NoOverflow30At (numericalApproximation F32.rnd fw) out (2 ^ d - 1))
    {H y x c : ℕ} (hx : x < out) (hc : c < N) {p : ℕ → ℕ} (hp : ∀ q, p q ≤ 2 ^ d - 1) :
    hvNeon16 N d fw H y x c p =
      (if N = 4 then fixedHalfDown else fixedRound) (2 ^ d - 1) (fw.bound x).size
        (fun k => (numericalApproximation F32.rnd fw).weight x k)
        (fun k => p (((fw.bound x).start + k) * N + c)) := by
  have h12 : ¬ 12 < d := by omega
  have hq := hO.q_valid (ρ := F32.rnd) hT
  have hW := q_i16 hO hT
  have hker : ∀ k, k < (fw.bound x).size → ((numericalApproximation F32.rnd fw).kernel x).getD k 0 =
      (numericalApproximation F32.rnd fw).weight x k := fun k hk => kernel_getD_lt hq hx hk
  have hle := hq.size_le x hx
  have hkl := hq.shape.kernel_length hx
  unfold hvNeon16
  dsimp only
  rw [if_neg h12]
  by_cases h4 : N = 4
  · subst h4
    rw [if_pos rfl, if_pos rfl]
    unfold qH
    rw [(lb_down hd (tapOrder_perm _) _ _ _).1]
    · refine fixedHalfDown_congr hker fun k hk => ?_
      unfold win16
      rw [if_pos ⟨hk, hc⟩]
    · intro k hk
      rw [hker k hk]
      apply hW
      have hal : (x + 1) * (numericalApproximation F32.rnd fw).alignedSize ≤
          out * (numericalApproximation F32.rnd fw).alignedSize := Nat.mul_le_mul_right _ hx
      rw [Nat.add_mul] at hal
      have hlen := hq.weights_len
      have hb : (numericalApproximation F32.rnd fw).bound x = fw.bound x := rfl
      rw [hb] at hle
      unfold FilterWeights.weight
      rw [List.getD_eq_getElem?_getD, List.getElem?_eq_getElem (by omega)]
      exact List.getElem_mem _
    · intro k _
      unfold win16
      split_ifs
      · exact hp _
      · exact Nat.zero_le _
    · have := h30 x hx
      rw [na_bound] at this
      rw [sum_congr rfl (fun k hk => by rw [hker k (by simpa using hk)])]
      exact this
  · rw [if_neg h4, if_neg h4]
    have habs := wsum_abs_le (n := (fw.bound x).size) (w := fun k => (numericalApproximation F32.rnd fw).weight x k)
        (p := fun k => (p (((fw.bound x).start + k) * N + c) : ℤ)) (M := 2 ^ d - 1)
        (fun k hk => ⟨by positivity, by have := hp (((fw.bound x).start + k) * N + c); exact_mod_cast this⟩)
    have h := abs_le.1 habs
    have h3 := h30 x hx
    rw [na_bound] at h3
    rw [i32_eq_self (by omega) (by omega), saturateNarrow_round]
    rfl

/-- The vertical pass above 12 bits. -/
theorem vvNeon16_deep (half : Bool) {N d : ℕ} (h12 : 12 < d) (hd : d ≤ 16) (fw : FilterWeights ℚ) (width y q : ℕ)
    (P : ℕ → ℕ → ℕ) : vvNeon16 half N d fw width y q P =
      nearestClamp d (tapsL tapF 0 (rowW fw y) (colOf fw P y (readColumn 16 (width * N) q)) (List.range (fw.bound y).size)) := by
  unfold vvNeon16 columnVal
  dsimp only
  rw [if_pos h12, narrowF_eq hd, narrowFTail_eq]
  exact ite_self _

/-- The vertical pass up to 12 bits, half precision. -/
theorem vvNeon16_half {N d : ℕ} (hd : d ≤ 12) (fw : FilterWeights ℚ) (width y q : ℕ)
    (P : ℕ → ℕ → ℕ) : vvNeon16 true N d fw width y q P =
      narrowH d (tapsL tapH 0 (rowW (halfWeights fw) y) (colOf fw P y (readColumn 16 (width * N) q)) (List.range (fw.bound y).size)) := by
  unfold vvNeon16 columnVal
  dsimp only
  rw [if_neg (by omega), if_pos rfl]
  exact ite_self _

theorem vvNeon16_le (half : Bool) {N d : ℕ} (hd : d ≤ 16) (fw : FilterWeights ℚ) (width y q : ℕ) (P : ℕ → ℕ → ℕ) :
    vvNeon16 half N d fw width y q P ≤ 2 ^ d - 1 := by
  by_cases h12 : 12 < d
  · rw [vvNeon16_deep half h12 hd]; exact clamp_le _ _
  · unfold vvNeon16 columnVal
    dsimp only
    rw [if_neg h12]
    split_ifs
    · exact narrowH_le _ _
    · exact narrowH_le _ _
    · exact narrowQ_le _ _
    · exact narrowTail_le _ _

theorem hvNeon16_le (N d : ℕ) (fw : FilterWeights ℚ) (H y x c : ℕ) (p : ℕ → ℕ) :
    hvNeon16 N d fw H y x c p ≤ 2 ^ d - 1 := by
  unfold hvNeon16
  dsimp only
  split_ifs
  · exact h16_le _ _ _ _ _
  · exact narrowQ_le _ _
  · unfold saturateNarrow
    generalize 2 ^ d - 1 = m
    omega

end PicScale
