import Verif.Props.VectorAccuracy

/-!
Property theorems C218 – C220: the strategies and the targets agree up to a stated number of units, for averaging filters
on 8-bit images.
-/

namespace PicScale

open Finset F32 Spec

/-! ### One pass -/

/-- A rounded value is within a half of `v`. -/
def Rounds (R : ℤ) (v : ℚ) : Prop := v - 1 / 2 ≤ R ∧ (R : ℚ) ≤ v + 1 / 2

theorem rounds_round (s : ℤ) : Rounds (fixRound s) ((s : ℚ) / 32768) := by
  unfold Rounds fixRound
  have h1 := Int.floor_le ((s : ℚ) / 32768 + 1 / 2)
  have h2 := Int.lt_floor_add_one ((s : ℚ) / 32768 + 1 / 2)
  constructor <;> linarith

theorem rounds_roundDown (s : ℤ) : Rounds (fixRoundDown s) ((s : ℚ) / 32768) := by
  unfold Rounds fixRoundDown
  have h1 := Int.le_ceil ((s : ℚ) / 32768 - 1 / 2)
  have h2 := Int.ceil_lt_add_one ((s : ℚ) / 32768 - 1 / 2)
  constructor <;> linarith

theorem clamp_le_add {hi k : ℕ} {a b : ℤ} (h : a ≤ b + k) : clamp hi a ≤ clamp hi b + k := by
  unfold clamp; omega

theorem wsum_shift {n d : ℕ} {w : ℕ → ℤ} {p p' : ℕ → ℕ} (h0 : ∀ k, 0 ≤ w k) (h : ∀ k, k < n → p k ≤ p' k + d) :
    wsum n w (fun k => (p k : ℤ)) ≤ wsum n w (fun k => (p' k : ℤ)) + (∑ k ∈ range n, w k) * d := by
  unfold wsum
  rw [sum_mul, ← sum_add_distrib]
  refine sum_le_sum fun k hk => ?_
  have := h k (by simpa using hk)
  rw [← mul_add]
  exact mul_le_mul_of_nonneg_left (by show (p k : ℤ) ≤ (p' k : ℤ) + d; exact_mod_cast this) (h0 k)

/-- The value of a low precision pass before the last rounding. -/
theorem low_between {n : ℕ} {w : ℕ → ℤ} {p : ℕ → ℕ} (h0 : ∀ k, 0 ≤ w k) (hp : ∀ k, k < n → p k ≤ 255) :
    ((wsum n w (fun k => (p k : ℤ)) : ℤ) : ℚ) / 32768 - n / 128 ≤ ((∑ k ∈ range n, lowTerm (p k) (w k) : ℤ) : ℚ) / 64 ∧
    ((∑ k ∈ range n, lowTerm (p k) (w k) : ℤ) : ℚ) / 64 ≤
      ((wsum n w (fun k => (p k : ℤ)) : ℤ) : ℚ) / 32768 + n / 128 + 63 / 64 * (((∑ k ∈ range n, w k : ℤ) : ℚ) / 32768) := by
  have hterm : ∀ k ∈ range n, (w k : ℚ) * p k / 512 - 1 / 2 ≤ ((lowTerm (p k) (w k) : ℤ) : ℚ) ∧
      ((lowTerm (p k) (w k) : ℤ) : ℚ) ≤ (w k : ℚ) * p k / 512 + 63 * w k / 32768 + 1 / 2 := by
    intro k hk
    have hp := hp k (by simpa using hk)
    unfold lowTerm
    set A : ℕ := 257 * p k / 4 with hA
    have a1 : (64 : ℚ) * p k ≤ A := by exact_mod_cast (by omega : 64 * p k ≤ A)
    have a2 : (A : ℚ) ≤ 64 * p k + 63 := by exact_mod_cast (by omega : A ≤ 64 * p k + 63)
    have hw : (0 : ℚ) ≤ w k := by exact_mod_cast h0 k
    have h1 := Int.floor_le ((A : ℚ) * w k / 32768 + 1 / 2)
    have h2 := Int.lt_floor_add_one ((A : ℚ) * w k / 32768 + 1 / 2)
    have m1 := mul_le_mul_of_nonneg_right a1 hw
    have m2 := mul_le_mul_of_nonneg_right a2 hw
    constructor <;> linarith
  have e1 : ((wsum n w (fun k => (p k : ℤ)) : ℤ) : ℚ) = ∑ k ∈ range n, (w k : ℚ) * p k := by
    unfold wsum; push_cast; rfl
  have l := sum_le_sum fun k hk => (hterm k hk).1
  have u := sum_le_sum fun k hk => (hterm k hk).2
  rw [sum_sub_distrib, sum_const, card_range, nsmul_eq_mul, ← sum_div, ← e1] at l
  rw [sum_add_distrib, sum_add_distrib, sum_const, card_range, nsmul_eq_mul, ← sum_div, ← sum_div, ← mul_sum, ← e1] at u
  push_cast
  constructor
  · linarith
  · linarith

/-- A low precision pass against a pass that rounds to nearest, whose samples may differ: at most `b` more, `a` less. -/
theorem low_vs_round {n a b : ℕ} {w : ℕ → ℤ} {p p' : ℕ → ℕ} {R : ℤ → ℤ} (hR : ∀ s : ℤ, Rounds (R s) ((s : ℚ) / 32768))
    (h0 : ∀ k, 0 ≤ w k) (hn : n ≤ 40) (hs : |(∑ k ∈ range n, w k) - 32768| ≤ 21) (ha : a ≤ 1) (hb : b ≤ 2)
    (hp : ∀ k, k < n → p k ≤ 255) (h1 : ∀ k, k < n → p' k ≤ p k + a) (h2 : ∀ k, k < n → p k ≤ p' k + b) :
    clamp 255 (R (wsum n w fun k => (p' k : ℤ))) ≤ fixedLow n w p + (a + 1) ∧
      fixedLow n w p ≤ clamp 255 (R (wsum n w fun k => (p' k : ℤ))) + (b + 2) := by
  have hS : |(∑ k ∈ range n, w k) - 32768| ≤ 21 := hs
  rw [abs_le] at hS
  obtain ⟨l, u⟩ := low_between h0 hp
  have d1 := wsum_shift h0 h1
  have d2 := wsum_shift h0 h2
  obtain ⟨r1, r2⟩ := hR (wsum n w fun k => (p' k : ℤ))
  set S := ∑ k ∈ range n, w k
  set X := wsum n w fun k => (p k : ℤ)
  set Y := wsum n w fun k => (p' k : ℤ)
  set T := ∑ k ∈ range n, lowTerm (p k) (w k)
  have s2 : (S : ℚ) ≤ 32789 := by exact_mod_cast (by omega : S ≤ 32789)
  have ha' : (a : ℚ) ≤ 1 := by exact_mod_cast ha
  have hb' : (b : ℚ) ≤ 2 := by exact_mod_cast hb
  have hn' : (n : ℚ) ≤ 40 := by exact_mod_cast hn
  have d1' : (Y : ℚ) ≤ X + S * a := by exact_mod_cast d1
  have d2' : (X : ℚ) ≤ Y + S * b := by exact_mod_cast d2
  have m1 : (S : ℚ) * a ≤ 32789 * a := mul_le_mul_of_nonneg_right s2 (by positivity)
  have m2 : (S : ℚ) * b ≤ 32789 * b := mul_le_mul_of_nonneg_right s2 (by positivity)
  have f1 := Int.floor_le ((T : ℚ) / 64 + 1 / 2)
  have f2 := Int.lt_floor_add_one ((T : ℚ) / 64 + 1 / 2)
  have e : fixedLow n w p = clamp 255 ⌊(T : ℚ) / 64 + 1 / 2⌋ := rfl
  rw [e]
  constructor
  · apply clamp_le_add
    have : (R Y : ℚ) < ⌊(T : ℚ) / 64 + 1 / 2⌋ + ((a : ℚ) + 2) := by linarith
    have : R Y < ⌊(T : ℚ) / 64 + 1 / 2⌋ + ((a : ℤ) + 2) := by exact_mod_cast this
    simp only [Nat.cast_add, Nat.cast_one, Nat.cast_ofNat]
    omega
  · apply clamp_le_add
    have : ((⌊(T : ℚ) / 64 + 1 / 2⌋ : ℤ) : ℚ) < R Y + ((b : ℚ) + 3) := by linarith
    have : ⌊(T : ℚ) / 64 + 1 / 2⌋ < R Y + ((b : ℤ) + 3) := by exact_mod_cast this
    simp only [Nat.cast_add, Nat.cast_one, Nat.cast_ofNat]
    omega

/-- Two passes that round to nearest (ties may differ), the second on samples at most `d` larger and never smaller. -/
theorem round_vs_round {n d : ℕ} {w : ℕ → ℤ} {p p' : ℕ → ℕ} (h0 : ∀ k, 0 ≤ w k)
    (hs : |(∑ k ∈ range n, w k) - 32768| ≤ 64) (hd : d ≤ 1)
    (h1 : ∀ k, k < n → p k ≤ p' k) (h2 : ∀ k, k < n → p' k ≤ p k + d) :
    fixedRoundDown n w p ≤ fixedRound 255 n w p' ∧ fixedRound 255 n w p' ≤ fixedRoundDown n w p + (d + 1) ∧
      fixedRound 255 n w p' ≤ fixedRound 255 n w p + 2 * d := by
  have hS := abs_le.1 hs
  have d1 := wsum_mono h0 h1
  have d2 := wsum_shift h0 h2
  unfold fixedRoundDown fixedRound
  set S := ∑ k ∈ range n, w k
  set X := wsum n w fun k => (p k : ℤ)
  set Y := wsum n w fun k => (p' k : ℤ)
  have hSd : S * (d : ℤ) ≤ 32832 * d := mul_le_mul_of_nonneg_right (by omega) (by positivity)
  have hd' : (d : ℚ) ≤ 1 := by exact_mod_cast hd
  have q1 : (X : ℚ) ≤ Y := by exact_mod_cast d1
  have q2 : (Y : ℚ) ≤ X + 32832 * d := by exact_mod_cast (by omega : Y ≤ X + 32832 * d)
  have a1 := Int.le_ceil ((X : ℚ) / 32768 - 1 / 2)
  have a2 := Int.ceil_lt_add_one ((X : ℚ) / 32768 - 1 / 2)
  have b1 := Int.floor_le ((Y : ℚ) / 32768 + 1 / 2)
  have b2 := Int.lt_floor_add_one ((Y : ℚ) / 32768 + 1 / 2)
  have c1 := Int.floor_le ((X : ℚ) / 32768 + 1 / 2)
  have c2 := Int.lt_floor_add_one ((X : ℚ) / 32768 + 1 / 2)
  unfold fixRoundDown fixRound
  refine ⟨?_, ?_, ?_⟩
  · apply clamp_mono
    have : ((⌈(X : ℚ) / 32768 - 1 / 2⌉ : ℤ) : ℚ) < ⌊(Y : ℚ) / 32768 + 1 / 2⌋ + 1 := by linarith
    have : ⌈(X : ℚ) / 32768 - 1 / 2⌉ < ⌊(Y : ℚ) / 32768 + 1 / 2⌋ + 1 := by exact_mod_cast this
    omega
  · apply clamp_le_add
    have : ((⌊(Y : ℚ) / 32768 + 1 / 2⌋ : ℤ) : ℚ) < ⌈(X : ℚ) / 32768 - 1 / 2⌉ + ((d : ℚ) + 2) := by linarith
    have : ⌊(Y : ℚ) / 32768 + 1 / 2⌋ < ⌈(X : ℚ) / 32768 - 1 / 2⌉ + ((d : ℤ) + 2) := by exact_mod_cast this
    push_cast
    omega
  · apply clamp_le_add
    rcases Nat.le_one_iff_eq_zero_or_eq_one.1 hd with rfl | rfl
    · have q3 : (Y : ℚ) ≤ X := by simpa using q2
      have : ⌊(Y : ℚ) / 32768 + 1 / 2⌋ ≤ ⌊(X : ℚ) / 32768 + 1 / 2⌋ := Int.floor_le_floor (by linarith)
      simpa using this
    · have : ((⌊(Y : ℚ) / 32768 + 1 / 2⌋ : ℤ) : ℚ) < ⌊(X : ℚ) / 32768 + 1 / 2⌋ + 3 := by push_cast at q2; linarith
      have : ⌊(Y : ℚ) / 32768 + 1 / 2⌋ < ⌊(X : ℚ) / 32768 + 1 / 2⌋ + 3 := by exact_mod_cast this
      push_cast
      omega

/-- Truncation against rounding. -/
theorem floor_vs_round (n : ℕ) (w : ℕ → ℤ) (p : ℕ → ℕ) :
    fixedFloor 255 n w p ≤ fixedRound 255 n w p ∧ fixedRound 255 n w p ≤ fixedFloor 255 n w p + 1 := by
  unfold fixedFloor fixedRound fixFloor fixRound
  set v := ((wsum n w fun k => (p k : ℤ) : ℤ) : ℚ) / 32768
  have a1 := Int.floor_le v
  have a2 := Int.lt_floor_add_one v
  have b1 := Int.floor_le (v + 1 / 2)
  constructor
  · exact clamp_mono _ (Int.floor_le_floor (by linarith))
  · apply clamp_le_add
    have : ((⌊v + 1 / 2⌋ : ℤ) : ℚ) < ⌊v⌋ + 2 := by linarith
    have : ⌊v + 1 / 2⌋ < ⌊v⌋ + 2 := by exact_mod_cast this
    push_cast
    omega

/-! ### Two passes -/

/-- Two resizes whose passes differ by bounded amounts. `a1`, `b1` bound the columns; `a2`, `b2` the results. -/
theorem separable_diff {sw sh dw dh y x : ℕ} {vs hs : ℕ → ℕ} {vv hv vv' hv' : ℕ → (ℕ → ℕ) → ℕ} {p : ℕ → ℕ → ℕ}
    {a1 b1 a2 b2 : ℕ} (hp : ∀ y x, p y x ≤ 255) (hb : ∀ P, vv y P ≤ 255) (hb' : ∀ P, vv' y P ≤ 255)
    (hV : sh ≠ dh → ∀ P : ℕ → ℕ, (∀ k, P k ≤ 255) → vv' y P ≤ vv y P + a1 ∧ vv y P ≤ vv' y P + b1)
    (hH0 : sw = dw → a1 ≤ a2 ∧ b1 ≤ b2)
    (hH : sw ≠ dw → ∀ P P' : ℕ → ℕ, (∀ k, P k ≤ 255) → (∀ k, P' k ≤ 255) →
      (∀ k, P' k ≤ P k + (if sh = dh then 0 else a1)) → (∀ k, P k ≤ P' k + (if sh = dh then 0 else b1)) →
      hv' x P' ≤ hv x P + a2 ∧ hv x P ≤ hv' x P' + b2) :
    separable sw sh dw dh vs vv' hs hv' p y x ≤ separable sw sh dw dh vs vv hs hv p y x + a2 ∧
      separable sw sh dw dh vs vv hs hv p y x ≤ separable sw sh dw dh vs vv' hs hv' p y x + b2 := by
  unfold separable
  dsimp only
  by_cases hd : sw = dw
  · simp only [hd, if_true]
    obtain ⟨u, v⟩ := hH0 hd
    by_cases he : sh = dh
    · simp only [he, if_true]; omega
    · simp only [he, if_false]
      have := hV he (fun k => p (vs y + k) x) fun k => hp _ _
      omega
  · simp only [hd, if_false]
    apply hH hd
    · intro k; split_ifs
      · exact hp _ _
      · exact hb _
    · intro k; split_ifs
      · exact hp _ _
      · exact hb' _
    · intro k; split_ifs with he
      · simp
      · exact (hV he _ fun j => hp _ _).1
    · intro k; split_ifs with he
      · simp
      · exact (hV he _ fun j => hp _ _).2

/-- **C218.** On x86, averaging filters with at most 40 taps: the default strategy (`PreferSpeed`) gives samples at most 2
below and 4 above those of `PreferQuality`; 1 below and 2 above if only one dimension changes. (Conditions of
`C53_quality_partial` and `C54_speed_partial`.) -/
theorem C218_speed_quality {cpu : Cpu} {W N : ℕ} {L : Lib} {r : ResamplingFunction} {store into out out' : Image ℕ}
    (hr : r ∈ averaging2) (h : AcceptedCall W N r store into) (hb : ∀ v ∈ store.buffer, v ≤ 255)
    (hs : cpu.avx2 = true) (hs' : cpu.sse41 = true) (hN : N ≠ 3 ∨ store.width = into.width)
    (hw : below8 store.width into.width = true) (hh : below8 store.height into.height = true)
    (ht : BothTables L r store into Taps40)
    (ho : genericResize W N (formatX86 cpu .preferSpeed N) L r store into = some (.ok (), out))
    (ho' : genericResize W N (formatX86 cpu .preferQuality N) L r store into = some (.ok (), out')) :
    ∀ y x c, y < into.height → x < into.width → c < N →
      (N = 4 → c = 3 → ∀ q, IsTable L r store.width into.width q → (q.bound x).size ≤ 8) →
      pxD 0 out'.buffer (into.strideOf N) N y x c ≤ pxD 0 out.buffer (into.strideOf N) N y x c +
          (changed store.height into.height + changed store.width into.width) ∧
      pxD 0 out.buffer (into.strideOf N) N y x c ≤ pxD 0 out'.buffer (into.strideOf N) N y x c +
          2 * (changed store.height into.height + changed store.width into.width) := by
  have hr' := averages_of2 (L := L) hr
  obtain ⟨_, _, c3, _⟩ := checkResize_ok.1 h.checked
  have h16 : BothTables L r store into NoOverflow16 :=
    ⟨fun q hq => C115_low_precision hr c3.2.1 h.small.2 (fun a => (h.area a).2) hq
      fun i hi => le_trans (ht.1 q hq i hi) (by norm_num),
    fun q hq => C115_low_precision hr c3.1 h.small.1 (fun a => (h.area a).1) hq
      fun i hi => le_trans (ht.2 q hq i hi) (by norm_num)⟩
  obtain ⟨qv, qh, o, tv, th, Tv, Th, o1, _, _, o4⟩ :=
    C54_speed_partial (h.u8X86 (L := L) hr' hb) h16 hs' (fun _ => hs) hN hw hh
  obtain ⟨qv', qh', o', tv', th', _, _, o1', _, _, o4'⟩ := C53_quality_partial (h.u8X86 (L := L) hr' hb) (Or.inl ⟨hs, hN⟩)
  obtain rfl := isTable_unique tv tv'
  obtain rfl := isTable_unique th th'
  rw [ho] at o1
  obtain rfl : out = o := by simpa using o1
  rw [ho'] at o1'
  obtain rfl : out' = o' := by simpa using o1'
  have nv := table_nonneg hr' c3.2.1 h.small.2 (fun ha => (h.area ha).2) tv
  have nh := table_nonneg hr' c3.1 h.small.1 (fun ha => (h.area ha).1) th
  intro y x c hy hx hc h8
  have sv := near21 hr c3.2.1 h.small.2 (fun a => (h.area a).2) tv (ht.1 _ tv) hy
  have sh := near21 hr c3.1 h.small.1 (fun a => (h.area a).1) th (ht.2 _ th) hx
  unfold pxD
  rw [o4 y x c hy hx hc fun a b => h8 a b _ th, o4' y x c hy hx hc]
  simp only [Option.getD_some]
  refine separable_diff (a1 := changed store.height into.height) (b1 := 2 * changed store.height into.height)
    (pxD_byte hb N c) (fun _ => clamp_le _ _) (fun _ => clamp_le _ _) ?_ ?_ ?_
  · intro hne P hP
    rw [show changed store.height into.height = 1 from if_neg hne]
    exact low_vs_round (a := 0) (b := 0) rounds_round (nv y) (ht.1 _ tv y hy) sv (by omega) (by omega) (fun k _ => hP k)
      (fun _ _ => le_refl _) (fun _ _ => le_refl _)
  · intro e; omega
  · intro hne P P' hP hP' l u
    have e1 : (if store.height = into.height then 0 else changed store.height into.height) = changed store.height into.height := by
      unfold changed; split_ifs <;> rfl
    have e2 : (if store.height = into.height then 0 else 2 * changed store.height into.height) =
        2 * changed store.height into.height := by unfold changed; split_ifs <;> rfl
    rw [e1] at l
    rw [e2] at u
    have hle : changed store.height into.height ≤ 1 := by unfold changed; split_ifs <;> omega
    have := low_vs_round (a := changed store.height into.height) (b := 2 * changed store.height into.height) rounds_round (nh x)
      (ht.2 _ th x hx) sh hle (by omega) (fun k _ => hP k) (fun k _ => l k) (fun k _ => u k)
    rw [show changed store.width into.width = 1 from if_neg hne]
    exact ⟨this.1, le_trans this.2 (Nat.add_le_add_left (by omega) _)⟩

/-- **C219.** Averaging filters with at most 124 taps: with `PreferQuality` on an x86 CPU with AVX2 (1, 2 or 4 channels) a
sample is never below that of the portable code and at most 2 above it; at most 1 above if only the height changes, and
equal if only the width changes. -/
theorem C219_x86_portable {cpu : Cpu} {W N : ℕ} {L : Lib} {r : ResamplingFunction} {store into out out' : Image ℕ}
    (hr : r ∈ averaging2) (h : AcceptedCall W N r store into) (hb : ∀ v ∈ store.buffer, v ≤ 255)
    (hs : cpu.avx2 = true) (hN : N ≠ 3 ∨ store.width = into.width) (ht : BothTables L r store into Taps124)
    (ho : genericResize W N (formatX86 cpu .preferQuality N) L r store into = some (.ok (), out))
    (ho' : genericResize W N (formatU8 N) L r store into = some (.ok (), out')) :
    ∀ y x c, y < into.height → x < into.width → c < N →
      pxD 0 out'.buffer (into.strideOf N) N y x c ≤ pxD 0 out.buffer (into.strideOf N) N y x c ∧
      pxD 0 out.buffer (into.strideOf N) N y x c ≤ pxD 0 out'.buffer (into.strideOf N) N y x c +
          changed store.height into.height * (1 + changed store.width into.width) := by
  have hr' := averages_of2 (L := L) hr
  obtain ⟨_, _, c3, _⟩ := checkResize_ok.1 h.checked
  obtain ⟨qv, qh, o, tv, th, Tv, Th, o1, _, _, o4⟩ := C53_quality_partial (h.u8X86 (L := L) hr' hb) (Or.inl ⟨hs, hN⟩)
  obtain ⟨qv', qh', o', tv', th', _, _, o1', _, _, o4'⟩ := C21_separable (h.u8 (L := L) hr' hb)
  obtain rfl := isTable_unique tv tv'
  obtain rfl := isTable_unique th th'
  rw [ho] at o1
  obtain rfl : out = o := by simpa using o1
  rw [ho'] at o1'
  obtain rfl : out' = o' := by simpa using o1'
  have nh := table_nonneg hr' c3.1 h.small.1 (fun ha => (h.area ha).1) th
  intro y x c hy hx hc
  have sh := near64 hr c3.1 h.small.1 (fun a => (h.area a).1) th (ht.2 _ th) hx
  unfold pxD
  rw [o4 y x c hy hx hc, o4' y x c hy hx hc]
  simp only [Option.getD_some]
  have hle : changed store.height into.height ≤ 1 := by unfold changed; split_ifs <;> omega
  refine separable_diff (a1 := 0) (b1 := changed store.height into.height) (a2 := 0)
    (vs := fun i => (qv.bound i).start) (hs := fun i => (qh.bound i).start)
    (vv := fun i p => fixedRound 255 (qv.bound i).size (fun k => qv.weight i k) p)
    (hv := fun i p => fixedRound 255 (qh.bound i).size (fun k => qh.weight i k) p)
    (vv' := fun i p => fixedFloor 255 (qv.bound i).size (fun k => qv.weight i k) p)
    (hv' := fun i p => fixedRound 255 (qh.bound i).size (fun k => qh.weight i k) p)
    (p := fun y x => pxD 0 store.buffer (store.strideOf N) N y x c)
    (pxD_byte hb N c) (fun _ => clamp_le _ _) (fun _ => clamp_le _ _) ?_ ?_ ?_
  · intro hne P hP
    rw [show changed store.height into.height = 1 from if_neg hne]
    exact floor_vs_round _ _ _
  · intro e
    rw [show changed store.width into.width = 0 from if_pos e]
    omega
  · intro hne P P' hP hP' l u
    have e1 : (if store.height = into.height then 0 else 0) = 0 := by split_ifs <;> rfl
    have e2 : (if store.height = into.height then 0 else changed store.height into.height) =
        changed store.height into.height := by unfold changed; split_ifs <;> rfl
    rw [e1] at l
    rw [e2] at u
    rw [show changed store.width into.width = 1 from if_neg hne]
    have r := (round_vs_round (nh x) sh hle (fun k _ => l k) (fun k _ => u k)).2.2
    exact ⟨fixedRound_mono (nh x) fun k _ => l k, le_trans r (Nat.add_le_add_left (by omega) _)⟩

/-- **C220.** Averaging filters with at most 124 taps: the results of an AArch64 CPU with the 32-bit handlers and of an x86
CPU with AVX2 and `PreferQuality` differ by at most 1 for each dimension that changes (the former are never larger). RGBA, or
RGB and planes whose width does not change; conditions of `C139_neon_values`. -/
theorem C220_x86_neon {cpu : Cpu} {rdm : Bool} {s : Workload} {W N : ℕ} {L : Lib} {r : ResamplingFunction}
    {store into out out' : Image ℕ} (hr : r ∈ averaging2) (h : AcceptedCall W N r store into)
    (hb : ∀ v ∈ store.buffer, v ≤ 255) (hs : cpu.avx2 = true) (hn : Full32 rdm s)
    (hN : N = 4 ∨ ((N = 3 ∨ N = 1) ∧ store.width = into.width))
    (h3 : store.height = into.height ∨ store.width * N % 16 < 8 ∨
      ∀ q, IsTable L r store.height into.height q → ∀ y, y < into.height → (q.bound y).size ≠ 3)
    (ht : BothTables L r store into Taps124)
    (ho : genericResize W N (formatX86 cpu .preferQuality N) L r store into = some (.ok (), out))
    (ho' : genericResize W N (formatNeon rdm s N) L r store into = some (.ok (), out')) :
    ∀ y x c, y < into.height → x < into.width → c < N →
      pxD 0 out'.buffer (into.strideOf N) N y x c ≤ pxD 0 out.buffer (into.strideOf N) N y x c ∧
      pxD 0 out.buffer (into.strideOf N) N y x c ≤ pxD 0 out'.buffer (into.strideOf N) N y x c +
          (changed store.height into.height + changed store.width into.width) := by
  have hr' := averages_of2 (L := L) hr
  obtain ⟨_, _, c3, _⟩ := checkResize_ok.1 h.checked
  obtain ⟨qv, qh, o, tv, th, Tv, Th, o1, _, _, o4⟩ := C53_quality_partial (h.u8X86 (L := L) hr' hb)
    (Or.inl ⟨hs, by rcases hN with h | h; exacts [Or.inl (by omega), Or.inr h.2]⟩)
  obtain ⟨qv', qh', o', tv', th', _, _, o1', _, _, o4'⟩ := C139_neon_values (h.u8X86 (L := L) hr' hb) hn
    (by rcases hN with h | ⟨h | h, h'⟩; exacts [Or.inl (by omega), Or.inl (by omega), Or.inr ⟨h, h'⟩]) h3
  obtain rfl := isTable_unique tv tv'
  obtain rfl := isTable_unique th th'
  rw [ho] at o1
  obtain rfl : out = o := by simpa using o1
  rw [ho'] at o1'
  obtain rfl : out' = o' := by simpa using o1'
  have nv := table_nonneg hr' c3.2.1 h.small.2 (fun ha => (h.area ha).2) tv
  have nh := table_nonneg hr' c3.1 h.small.1 (fun ha => (h.area ha).1) th
  intro y x c hy hx hc
  have sv := near64 hr c3.2.1 h.small.2 (fun a => (h.area a).2) tv (ht.1 _ tv) hy
  have sh := near64 hr c3.1 h.small.1 (fun a => (h.area a).1) th (ht.2 _ th) hx
  unfold pxD
  rw [o4 y x c hy hx hc, o4' y x c hy hx hc]
  simp only [Option.getD_some]
  have hle : changed store.height into.height ≤ 1 := by unfold changed; split_ifs <;> omega
  refine separable_diff (a1 := 0) (b1 := changed store.height into.height) (a2 := 0)
    (vs := fun i => (qv.bound i).start) (hs := fun i => (qh.bound i).start)
    (vv := fun i p => fixedRound 255 (qv.bound i).size (fun k => qv.weight i k) p)
    (hv := fun i p => fixedRound 255 (qh.bound i).size (fun k => qh.weight i k) p)
    (vv' := fun i p => fixedRoundDown (qv.bound i).size (fun k => qv.weight i k) p)
    (hv' := fun i p => fixedRoundDown (qh.bound i).size (fun k => qh.weight i k) p)
    (p := fun y x => pxD 0 store.buffer (store.strideOf N) N y x c)
    (pxD_byte hb N c) (fun _ => clamp_le _ _) (fun _ => clamp_le _ _) ?_ ?_ ?_
  · intro hne P hP
    rw [show changed store.height into.height = 1 from if_neg hne]
    have := round_vs_round (d := 0) (nv y) sv (by omega) (fun k _ => le_refl (P k)) (fun k _ => le_refl (P k))
    exact ⟨this.1, this.2.1⟩
  · intro e; omega
  · intro hne P P' hP hP' l u
    have e1 : (if store.height = into.height then 0 else 0) = 0 := by split_ifs <;> rfl
    have e2 : (if store.height = into.height then 0 else changed store.height into.height) =
        changed store.height into.height := by unfold changed; split_ifs <;> rfl
    rw [e1] at l
    rw [e2] at u
    rw [show changed store.width into.width = 1 from if_neg hne]
    have r := round_vs_round (nh x) sh hle (fun k _ => l k) (fun k _ => u k)
    exact ⟨r.1, r.2.1⟩

/-! Concrete cases: the RGBA picture of C212 (3 × 4 to 5 × 2). -/

theorem Demo.blueAccepted : AcceptedX86 (2 ^ 64) 4 demoLib .bilinear Demo.blueSrc Demo.xdst :=
  Demo.blueCall.u8X86 (Or.inl (by decide)) Demo.blueBytes

example : ∃ out out', genericResize (2 ^ 64) 4 (formatX86 ⟨true, true⟩ .preferSpeed 4) demoLib .bilinear Demo.blueSrc Demo.xdst =
      some (.ok (), out) ∧
    genericResize (2 ^ 64) 4 (formatX86 ⟨true, true⟩ .preferQuality 4) demoLib .bilinear Demo.blueSrc Demo.xdst =
      some (.ok (), out') ∧ pxD 0 out.buffer 21 4 1 3 2 ≤ pxD 0 out'.buffer 21 4 1 3 2 + 4 := by
  obtain ⟨out, o1, _⟩ := C52_no_oob (L := demoLib) (cpu := ⟨true, true⟩) (s := .preferSpeed) Demo.blueCall (Or.inr (Or.inr (Or.inl rfl)))
  obtain ⟨out', o1', _⟩ := C52_no_oob (L := demoLib) (cpu := ⟨true, true⟩) (s := .preferQuality) Demo.blueCall (Or.inr (Or.inl rfl))
  exact ⟨out, out', o1, o1', (C218_speed_quality (by decide) Demo.blueCall Demo.blueBytes rfl rfl (Or.inl (by decide))
    (by decide +kernel) (by decide +kernel) (Demo.blueTaps 40 (by norm_num)) o1 o1' 1 3 2 (by decide) (by decide) (by decide)
    (by intro _ h; exact absurd h (by decide))).2⟩

example : ∃ out out', genericResize (2 ^ 64) 4 (formatX86 ⟨true, true⟩ .preferQuality 4) demoLib .bilinear Demo.blueSrc Demo.xdst =
      some (.ok (), out) ∧
    genericResize (2 ^ 64) 4 (formatU8 4) demoLib .bilinear Demo.blueSrc Demo.xdst = some (.ok (), out') ∧
    pxD 0 out'.buffer 21 4 1 3 2 ≤ pxD 0 out.buffer 21 4 1 3 2 ∧
    pxD 0 out.buffer 21 4 1 3 2 ≤ pxD 0 out'.buffer 21 4 1 3 2 + 2 := by
  obtain ⟨out, o1, _⟩ := C52_no_oob (L := demoLib) (cpu := ⟨true, true⟩) (s := .preferQuality) Demo.blueCall (Or.inr (Or.inl rfl))
  obtain ⟨_, _, out', _, _, _, _, o1', _⟩ := C21_separable (Demo.blueCall.u8 (L := demoLib) (Or.inl (by decide)) Demo.blueBytes)
  exact ⟨out, out', o1, o1', C219_x86_portable (by decide) Demo.blueCall Demo.blueBytes rfl (Or.inl (by decide))
    (Demo.blueTaps 124 (by norm_num)) o1 o1' 1 3 2 (by decide) (by decide) (by decide)⟩

/-- The difference of C219 is real: 10, 11 halved in height is 11 with AVX2 and 10 in portable code. -/
example : fixedFloor 255 2 (fun _ => 16384) (fun k => 10 + k) = 10 ∧ fixedRound 255 2 (fun _ => 16384) (fun k => 10 + k) = 11 := by
  decide +kernel

/-- An RGBA picture with rows of 16 bytes, for C220. -/
def Demo.blue4 : Image ℕ :=
  { buffer := (List.range 64).map (fun i => 60 + i * 7 % 31), channels := 4, width := 4, height := 4, stride := 16, bitDepth := 8 }

example : ∃ out out', genericResize (2 ^ 64) 4 (formatX86 ⟨true, true⟩ .preferQuality 4) demoLib .bilinear Demo.blue4 Demo.xdst =
      some (.ok (), out) ∧
    genericResize (2 ^ 64) 4 (formatNeon false .preferSpeed 4) demoLib .bilinear Demo.blue4 Demo.xdst = some (.ok (), out') ∧
    pxD 0 out.buffer 21 4 1 3 2 ≤ pxD 0 out'.buffer 21 4 1 3 2 + 2 := by
  have hc : AcceptedCall (2 ^ 64) 4 .bilinear Demo.blue4 Demo.xdst := by constructor <;> decide +kernel
  have hb : ∀ v ∈ Demo.blue4.buffer, v ≤ 255 := by decide +kernel
  have ht : BothTables demoLib .bilinear Demo.blue4 Demo.xdst Taps124 := by
    refine ⟨(Demo.blueTaps 124 (by norm_num)).1, ?_⟩
    rintro q ⟨fw, e, rfl⟩
    have : (tableOf demoLib .bilinear Demo.blue4.width Demo.xdst.width).map (fun t => (List.range 5).all fun x =>
        decide (((numericalApproximation F32.rnd t).bound x).size ≤ 124)) = some true := by decide +kernel
    rw [e] at this
    intro i hi
    simp only [Option.map_some, Option.some.injEq, List.all_eq_true, List.mem_range, decide_eq_true_eq] at this
    exact this i hi
  obtain ⟨out, o1, _⟩ := C52_no_oob (L := demoLib) (cpu := ⟨true, true⟩) (s := .preferQuality) hc (Or.inr (Or.inl rfl))
  obtain ⟨_, _, out', _, _, _, _, _, _, o1', _⟩ := neon_values (rdm := false) (s := .preferSpeed)
    (hc.u8X86 (L := demoLib) (Or.inl (by decide)) hb) (fun hk => absurd hk (by decide +kernel))
  exact ⟨out, out', o1, o1', (C220_x86_neon (by decide) hc hb rfl (Or.inr rfl) (Or.inl rfl) (Or.inr (Or.inl (by decide))) ht
    o1 o1' 1 3 2 (by decide) (by decide) (by decide)).2⟩

end PicScale
