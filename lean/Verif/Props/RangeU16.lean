import Verif.Props.OrderU16

/-!
Property theorem C274: results of u16 resizes of up to 12 bits stay in the range of the source.
-/

namespace PicScale

open F32 Spec Finset

/-- How far the quantised weights of a window of `n` taps may be from adding up to one. -/
def Spec.sumErr (n : ℕ) : ℚ := (130 * n + 261) / 2 ^ 23

theorem sumErr_pos (n : ℕ) : 0 < sumErr n := by unfold sumErr; positivity

/-- Two passes with a condition on values after each. -/
theorem sepFun_two {S : Type} {A B C : S → Prop} {N sw sh dw dh : ℕ} {vs vn hs hn : ℕ → ℕ}
    {vv : ℕ → ℕ → (ℕ → ℕ → S) → S} {hv : ℕ → ℕ → ℕ → (ℕ → S) → S} {p : ℕ → ℕ → S} {y x c : ℕ}
    (Tv : vs y + vn y ≤ sh) (Th : hs x + hn x ≤ sw) (hy : y < dh) (hx : x < dw) (hc : c < N)
    (hP : ∀ j q, j < sh → q < sw * N → A (p j q)) (hAB : ∀ v, A v → B v) (hBC : ∀ v, B v → C v)
    (hvv : ∀ q, q < sw * N → (∀ k q', k < vn y → q' < sw * N → A (p (vs y + k) q')) → B (vv y q p))
    (hhv : ∀ r : ℕ → S, (∀ k c', k < hn x → c' < N → B (r ((hs x + k) * N + c'))) → C (hv y x c r)) :
    C (sepFun N sw sh dw dh vv hv p y x c) := by
  have col : ∀ q, q < sw * N → B (if sh = dh then p y q else vv y q p) := by
    intro q hq
    split_ifs with e
    · exact hAB _ (hP y q (by omega) hq)
    · exact hvv _ hq fun k q' hk hq' => hP _ _ (by omega) hq'
  unfold sepFun
  dsimp only
  by_cases e : sw = dw
  · rw [if_pos e]; exact hBC _ (col _ (pos_lt (by omega) hc))
  · rw [if_neg e]
    exact hhv _ fun k c' hk hc' => col _ (pos_lt (by omega) hc')

/-- Bounds on a weighted sum with non-negative weights that nearly add up to `2^15`. -/
theorem wsum_range {n : ℕ} {w : ℕ → ℤ} {p : ℕ → ℕ} {e m M : ℚ} (hw : ∀ k, 0 ≤ w k)
    (hs : |((∑ k ∈ range n, w k : ℤ) : ℚ) - 32768| ≤ 32768 * e) (hm : 0 ≤ m) (hM : 0 ≤ M)
    (hp : ∀ k, k < n → m ≤ p k ∧ (p k : ℚ) ≤ M) :
    m * (1 - e) ≤ ((wsum n w fun k => (p k : ℤ) : ℤ) : ℚ) / 32768 ∧
      ((wsum n w fun k => (p k : ℤ) : ℤ) : ℚ) / 32768 ≤ M * (1 + e) := by
  have e1 : ((wsum n w fun k => (p k : ℤ) : ℤ) : ℚ) = ∑ k ∈ range n, (w k : ℚ) * p k := by
    unfold wsum; push_cast; rfl
  have e2 : ((∑ k ∈ range n, w k : ℤ) : ℚ) = ∑ k ∈ range n, (w k : ℚ) := by push_cast; rfl
  have lo : (∑ k ∈ range n, (w k : ℚ)) * m ≤ ∑ k ∈ range n, (w k : ℚ) * p k := by
    rw [sum_mul]
    exact sum_le_sum fun k hk => mul_le_mul_of_nonneg_left (hp k (mem_range.1 hk)).1 (by exact_mod_cast hw k)
  have up : ∑ k ∈ range n, (w k : ℚ) * p k ≤ (∑ k ∈ range n, (w k : ℚ)) * M := by
    rw [sum_mul]
    exact sum_le_sum fun k hk => mul_le_mul_of_nonneg_left (hp k (mem_range.1 hk)).2 (by exact_mod_cast hw k)
  rw [e2, abs_le] at hs
  rw [e1]
  constructor
  · rw [le_div_iff₀ (by norm_num)]; nlinarith [hs.1]
  · rw [div_le_iff₀ (by norm_num)]; nlinarith [hs.2]

/-- Clamping keeps bounds. -/
theorem clamp_range {hi : ℕ} {z : ℤ} {a b : ℚ} (h1 : a ≤ z) (h2 : (z : ℚ) ≤ b) (ha : a ≤ hi) (hb : 0 ≤ b) :
    a ≤ (clamp hi z : ℚ) ∧ (clamp hi z : ℚ) ≤ b := by
  have key : ((clamp hi z : ℕ) : ℤ) = max 0 (min z hi) := by unfold clamp; omega
  have key' : ((clamp hi z : ℕ) : ℚ) = max 0 (min (z : ℚ) hi) := by
    have := congrArg (fun t : ℤ => (t : ℚ)) key
    push_cast at this; exact this
  rw [key']
  exact ⟨le_trans (le_min h1 ha) (le_max_right _ _), max_le hb (le_trans (min_le_left _ _) h2)⟩

section pass
variable {hi n : ℕ} {w : ℕ → ℤ} {p : ℕ → ℕ} {e m M : ℚ} (hw : ∀ k, 0 ≤ w k)
  (hs : |((∑ k ∈ range n, w k : ℤ) : ℚ) - 32768| ≤ 32768 * e) (hm : 0 ≤ m) (hM : 0 ≤ M) (he : 0 < e) (hmh : m ≤ hi)
  (hp : ∀ k, k < n → m ≤ p k ∧ (p k : ℚ) ≤ M)
include hw hs hm hM he hmh hp

theorem fixedRound_range : m * (1 - e) - 1 ≤ fixedRound hi n w p ∧ (fixedRound hi n w p : ℚ) ≤ M * (1 + e) + 1 / 2 := by
  obtain ⟨a, b⟩ := wsum_range hw hs hm hM hp
  unfold fixedRound fixRound
  have f1 := Int.floor_le (((wsum n w fun k => (p k : ℤ) : ℤ) : ℚ) / 32768 + 1 / 2)
  have f2 := Int.lt_floor_add_one (((wsum n w fun k => (p k : ℤ) : ℤ) : ℚ) / 32768 + 1 / 2)
  exact clamp_range (by linarith) (by linarith) (by nlinarith) (by nlinarith)

theorem fixedFloor_range : m * (1 - e) - 1 ≤ fixedFloor hi n w p ∧ (fixedFloor hi n w p : ℚ) ≤ M * (1 + e) + 1 / 2 := by
  obtain ⟨a, b⟩ := wsum_range hw hs hm hM hp
  unfold fixedFloor fixFloor
  have f1 := Int.floor_le (((wsum n w fun k => (p k : ℤ) : ℤ) : ℚ) / 32768)
  have f2 := Int.lt_floor_add_one (((wsum n w fun k => (p k : ℤ) : ℤ) : ℚ) / 32768)
  exact clamp_range (by linarith) (by linarith) (by nlinarith) (by nlinarith)

theorem fixedHalfDown_range :
    m * (1 - e) - 1 ≤ fixedHalfDown hi n w p ∧ (fixedHalfDown hi n w p : ℚ) ≤ M * (1 + e) + 1 / 2 := by
  obtain ⟨a, b⟩ := wsum_range hw hs hm hM hp
  unfold fixedHalfDown fixRoundDown
  have f1 := Int.le_ceil (((wsum n w fun k => (p k : ℤ) : ℤ) : ℚ) / 32768 - 1 / 2)
  have f2 := Int.ceil_lt_add_one (((wsum n w fun k => (p k : ℤ) : ℤ) : ℚ) / 32768 - 1 / 2)
  exact clamp_range (by linarith) (by linarith) (by nlinarith) (by nlinarith)

end pass

/-- Windows have at most `n` taps. -/
def AtMostTaps (n : ℕ) (q : FilterWeights ℤ) (out : ℕ) : Prop := ∀ i, i < out → (q.bound i).size ≤ n

theorem sum_near {L : Lib} {r : ResamplingFunction} (hr : r ∈ averaging2) {inn out n : ℕ} {q : FilterWeights ℤ}
    (h1 : 1 ≤ inn) (h2 : inn ≤ 2 ^ 23) (ha : r = .area → out ≤ 2 ^ 22) (hq : IsTable L r inn out q)
    (ht : AtMostTaps n q out) {i : ℕ} (hi : i < out) :
    |((∑ k ∈ range (q.bound i).size, q.weight i k : ℤ) : ℚ) - 32768| ≤ 32768 * sumErr n := by
  refine le_trans (quantised_near hr h1 h2 ha hq hi) ?_
  have h3 : ((q.bound i).size : ℚ) ≤ n := by exact_mod_cast ht i hi
  unfold sumErr
  linarith

/-- `v` lies in the range after one, or both, passes. -/
def Pass1 (e m M : ℚ) (v : ℕ) : Prop := max 0 (m * (1 - e) - 1) ≤ v ∧ (v : ℚ) ≤ M * (1 + e) + 1 / 2

/-- `v` lies between `m` and `M`, up to the relative error `e` of each pass and rounding. -/
def Spec.InRange2 (e m M : ℚ) (v : ℕ) : Prop := m * (1 - e) ^ 2 - 2 ≤ v ∧ (v : ℚ) ≤ (M + 1) * (1 + e) ^ 2

theorem pass2 {e m M : ℚ} {v : ℕ} (he : 0 < e) (he1 : e ≤ 1) (hm : 0 ≤ m) (hM : 0 ≤ M)
    (h : max 0 (m * (1 - e) - 1) * (1 - e) - 1 ≤ v ∧ (v : ℚ) ≤ (M * (1 + e) + 1 / 2) * (1 + e) + 1 / 2) :
    InRange2 e m M v := by
  have h0 := le_max_right (0 : ℚ) (m * (1 - e) - 1)
  constructor
  · refine le_trans ?_ h.1
    nlinarith [mul_le_mul_of_nonneg_right h0 (by linarith : 0 ≤ 1 - e)]
  · refine le_trans h.2 ?_
    nlinarith

theorem pass1_of {e m M : ℚ} {v : ℕ} (h : m * (1 - e) - 1 ≤ v ∧ (v : ℚ) ≤ M * (1 + e) + 1 / 2) : Pass1 e m M v :=
  ⟨max_le (by positivity) h.1, h.2⟩

/-- What all three families of handlers do: `f` is any pass that keeps the ranges. -/
theorem range_sepFun {N sw sh dw dh hi : ℕ} {vs vn hs hn : ℕ → ℕ} {vv : ℕ → ℕ → (ℕ → ℕ → ℕ) → ℕ}
    {hv : ℕ → ℕ → ℕ → (ℕ → ℕ) → ℕ} {p : ℕ → ℕ → ℕ} {y x c : ℕ} {e m M : ℚ}
    (Tv : vs y + vn y ≤ sh) (Th : hs x + hn x ≤ sw) (hy : y < dh) (hx : x < dw) (hc : c < N)
    (he : 0 < e) (he1 : e ≤ 1) (hm : 0 ≤ m) (hM : 0 ≤ M) (hmh : m ≤ hi)
    (hP : ∀ j q, j < sh → q < sw * N → m ≤ p j q ∧ (p j q : ℚ) ≤ M)
    (hvv : ∀ q, q < sw * N → (∀ k q', k < vn y → q' < sw * N → m ≤ p (vs y + k) q' ∧ (p (vs y + k) q' : ℚ) ≤ M) →
      m * (1 - e) - 1 ≤ vv y q p ∧ (vv y q p : ℚ) ≤ M * (1 + e) + 1 / 2)
    (hhv : ∀ (r : ℕ → ℕ) (m' M' : ℚ), 0 ≤ m' → 0 ≤ M' → m' ≤ hi →
      (∀ k c', k < hn x → c' < N → m' ≤ r ((hs x + k) * N + c') ∧ (r ((hs x + k) * N + c') : ℚ) ≤ M') →
      m' * (1 - e) - 1 ≤ hv y x c r ∧ (hv y x c r : ℚ) ≤ M' * (1 + e) + 1 / 2) :
    InRange2 e m M (sepFun N sw sh dw dh vv hv p y x c) := by
  have hm1 : m * (1 - e) - 1 ≤ m := by nlinarith
  have hle : max 0 (m * (1 - e) - 1) ≤ m := max_le hm hm1
  refine sepFun_two (A := fun v : ℕ => m ≤ (v : ℚ) ∧ (v : ℚ) ≤ M) (B := Pass1 e m M) (C := InRange2 e m M) Tv Th hy hx hc hP
    (fun v h => ⟨le_trans hle h.1, by nlinarith [h.2]⟩) (fun v h => pass2 he he1 hm hM ⟨?_, ?_⟩)
    (fun q hq h => pass1_of (hvv q hq h)) (fun r h => ?_)
  · have := le_max_left (0 : ℚ) (m * (1 - e) - 1)
    have := h.1
    nlinarith
  · have := h.2
    nlinarith
  · exact pass2 he he1 hm hM (hhv r _ _ (le_max_left _ _) (by nlinarith) (le_trans hle hmh) h)

theorem sumErr_le_one {n : ℕ} (hn : n ≤ 2 ^ 15) : sumErr n ≤ 1 := by
  have : (n : ℚ) ≤ 2 ^ 15 := by exact_mod_cast hn
  unfold sumErr
  rw [div_le_one (by positivity)]
  linarith

/-- Every sample of the picture lies between `m` and `M`. -/
def Spec.SamplesIn (N : ℕ) (store : Image ℕ) (m M : ℕ) : Prop :=
  ∀ y x c, y < store.height → x < store.width → c < N →
    m ≤ pxD 0 store.buffer (store.strideOf N) N y x c ∧ pxD 0 store.buffer (store.strideOf N) N y x c ≤ M

theorem Spec.SamplesIn.rows {N : ℕ} {store : Image ℕ} {m M : ℕ} (hN : 1 ≤ N) (h : SamplesIn N store m M) (j q : ℕ)
    (hj : j < store.height) (hq : q < store.width * N) :
    (m : ℚ) ≤ rowPos 0 store.buffer (store.strideOf N) j q ∧ ((rowPos 0 store.buffer (store.strideOf N) j q : ℕ) : ℚ) ≤ M := by
  have e : q = q / N * N + q % N := by rw [Nat.mul_comm]; exact (Nat.div_add_mod q N).symm
  rw [e, rowPos_pxD]
  obtain ⟨a, b⟩ := h _ _ _ hj (Nat.div_lt_of_lt_mul (by rwa [Nat.mul_comm])) (Nat.mod_lt q (by omega))
  exact ⟨by exact_mod_cast a, by exact_mod_cast b⟩

/-- What is needed of a call: an averaging filter of support two, depth up to 12 bits, windows of at most `n` taps. -/
structure RangeCall (W N n : ℕ) (L : Lib) (r : ResamplingFunction) (store into : Image ℕ) (m M : ℕ) : Prop where
  filter : r ∈ averaging2
  call : AcceptedCall16 W N r store into
  depth : into.bitDepth ≤ 12
  top : M ≤ 2 ^ into.bitDepth - 1
  inRange : ∀ v ∈ store.buffer, v ≤ 2 ^ into.bitDepth - 1
  order : m ≤ M
  taps : n ≤ 2 ^ 15
  windows : BothTables L r store into (AtMostTaps n)
  samples : SamplesIn N store m M

/-- **C274, x86.** With an averaging filter of support two the samples of a resized picture of up to 12 bits lie
between the smallest and the largest sample of the source, up to the rounding of the weights. -/
theorem C274_range_u16 {W N n m M : ℕ} {L : Lib} {r : ResamplingFunction} {store into : Image ℕ}
    (h : RangeCall W N n L r store into m M) (cpu : Cpu) (fma fused : Bool) :
    ∃ out, genericResize W N (formatU16X86 cpu fma fused N) L r store into = some (.ok (), out) ∧
      ∀ y x c, y < into.height → x < into.width → c < N →
        InRange2 (sumErr n) m M (pxD 0 out.buffer (into.strideOf N) N y x c) := by
  have hr : Averages L r := averages_of2 h.filter
  obtain ⟨_, _, c3, _⟩ := checkResize_ok.1 h.call.checked
  obtain ⟨qv, qh, out, tv, th, Tv, Th, o1, _, _, o4⟩ := u16X86_values (h.call.lb (L := L) hr h.depth h.inRange) cpu fma fused
  obtain ⟨nv, nh⟩ := h.call.nonneg hr
  have hmh : (m : ℚ) ≤ ((2 ^ into.bitDepth - 1 : ℕ) : ℚ) := by exact_mod_cast le_trans h.order h.top
  refine ⟨out, o1, fun y x c hy hx hc => ?_⟩
  have sv := sum_near h.filter c3.2.1 h.call.small.2 (fun a => (h.call.area a).2) tv (h.windows.1 _ tv) hy
  have sh := sum_near h.filter c3.1 h.call.small.1 (fun a => (h.call.area a).1) th (h.windows.2 _ th) hx
  unfold pxD
  rw [o4 y x c hy hx hc, Option.getD_some]
  refine range_sepFun (vs := fun i => (qv.bound i).start) (vn := fun i => (qv.bound i).size)
    (hs := fun i => (qh.bound i).start) (hn := fun i => (qh.bound i).size) (Tv.inside y hy) (Th.inside x hx) hy hx hc
    (sumErr_pos n) (sumErr_le_one h.taps) (by positivity) (by positivity) hmh (h.samples.rows h.call.channels.1)
    (fun q hq a => ?_)
    (fun r m' M' a1 a2 a3 a => fixedRound_range (nh _ th _) sh a1 a2 (sumErr_pos n) a3 fun k hk => a k c hk hc)
  unfold vLb
  split_ifs
  · exact fixedRound_range (nv _ tv _) sv (by positivity) (by positivity) (sumErr_pos n) hmh
      fun k hk => a k _ hk (readColumn_lt (groupOf_cases cpu) hq)
  · exact fixedFloor_range (nv _ tv _) sv (by positivity) (by positivity) (sumErr_pos n) hmh fun k hk => a k _ hk hq

/-- **C274, AArch64** (without half precision arithmetic). -/
theorem C274_range_u16_neon {W N n m M : ℕ} {L : Lib} {r : ResamplingFunction} {store into : Image ℕ}
    (h : RangeCall W N n L r store into m M) :
    ∃ out, genericResize W N (formatU16Neon false N) L r store into = some (.ok (), out) ∧
      ∀ y x c, y < into.height → x < into.width → c < N →
        InRange2 (sumErr n) m M (pxD 0 out.buffer (into.strideOf N) N y x c) := by
  have hr : Averages L r := averages_of2 h.filter
  obtain ⟨_, _, c3, _⟩ := checkResize_ok.1 h.call.checked
  obtain ⟨qv, qh, out, tv, th, Tv, Th, o1, _, _, o4⟩ := u16Neon_values (h.call.lb (L := L) hr h.depth h.inRange)
  obtain ⟨nv, nh⟩ := h.call.nonneg hr
  have hmh : (m : ℚ) ≤ ((2 ^ into.bitDepth - 1 : ℕ) : ℚ) := by exact_mod_cast le_trans h.order h.top
  refine ⟨out, o1, fun y x c hy hx hc => ?_⟩
  have sv := sum_near h.filter c3.2.1 h.call.small.2 (fun a => (h.call.area a).2) tv (h.windows.1 _ tv) hy
  have sh := sum_near h.filter c3.1 h.call.small.1 (fun a => (h.call.area a).1) th (h.windows.2 _ th) hx
  unfold pxD
  rw [o4 y x c hy hx hc, Option.getD_some]
  refine range_sepFun (vs := fun i => (qv.bound i).start) (vn := fun i => (qv.bound i).size)
    (hs := fun i => (qh.bound i).start) (hn := fun i => (qh.bound i).size) (Tv.inside y hy) (Th.inside x hx) hy hx hc
    (sumErr_pos n) (sumErr_le_one h.taps) (by positivity) (by positivity) hmh (h.samples.rows h.call.channels.1)
    (fun q hq a => fixedHalfDown_range (nv _ tv _) sv (by positivity) (by positivity) (sumErr_pos n) hmh
      fun k hk => a k _ hk (readColumn16_lt hq))
    (fun r m' M' a1 a2 a3 a => ?_)
  unfold hDown
  split_ifs
  · exact fixedHalfDown_range (nh _ th _) sh a1 a2 (sumErr_pos n) a3 fun k hk => a k c hk hc
  · exact fixedRound_range (nh _ th _) sh a1 a2 (sumErr_pos n) a3 fun k hk => a k c hk hc

/-- **C274, AVX-512.** -/
theorem C274_range_u16_512 {W N n m M : ℕ} {L : Lib} {r : ResamplingFunction} {store into : Image ℕ}
    (h : RangeCall W N n L r store into m M) {cpu : Cpu512} (h5 : cpu.avx512 = true) (dot fma fused : Bool) :
    ∃ out, genericResize W N (formatU16X512 cpu dot fma fused N) L r store into = some (.ok (), out) ∧
      ∀ y x c, y < into.height → x < into.width → c < N →
        InRange2 (sumErr n) m M (pxD 0 out.buffer (into.strideOf N) N y x c) := by
  have hr : Averages L r := averages_of2 h.filter
  obtain ⟨_, _, c3, _⟩ := checkResize_ok.1 h.call.checked
  obtain ⟨qv, qh, out, tv, th, Tv, Th, o1, _, _, o4⟩ := C231_values (h.call.lb (L := L) hr h.depth h.inRange) h5 dot fma fused
  obtain ⟨nv, nh⟩ := h.call.nonneg hr
  have hmh : (m : ℚ) ≤ ((2 ^ into.bitDepth - 1 : ℕ) : ℚ) := by exact_mod_cast le_trans h.order h.top
  have he := sumErr_pos n
  have he1 := sumErr_le_one h.taps
  have hm0 : (0 : ℚ) ≤ m := by positivity
  have hM0 : (0 : ℚ) ≤ M := by positivity
  have hle : max 0 ((m : ℚ) * (1 - sumErr n) - 1) ≤ m := max_le hm0 (by nlinarith)
  refine ⟨out, o1, fun y x c hy hx hc => ?_⟩
  have sv := sum_near h.filter c3.2.1 h.call.small.2 (fun a => (h.call.area a).2) tv (h.windows.1 _ tv) hy
  have sh := sum_near h.filter c3.1 h.call.small.1 (fun a => (h.call.area a).1) th (h.windows.2 _ th) hx
  have hin := Th.inside x hx
  have hiv := Tv.inside y hy
  have src : ∀ y x, y < store.height → x < store.width → (m : ℚ) ≤ pxD 0 store.buffer (store.strideOf N) N y x c ∧
      ((pxD 0 store.buffer (store.strideOf N) N y x c : ℕ) : ℚ) ≤ M := fun y x a b => by
    obtain ⟨u, v⟩ := h.samples y x c a b hc
    exact ⟨by exact_mod_cast u, by exact_mod_cast v⟩
  have col : ∀ x', x' < store.width → Pass1 (sumErr n) m M
      (if store.height = into.height then pxD 0 store.buffer (store.strideOf N) N y x' c
        else fixedRound (2 ^ into.bitDepth - 1) (qv.bound y).size (fun k => qv.weight y k)
          (fun k => pxD 0 store.buffer (store.strideOf N) N ((qv.bound y).start + k) x' c)) := by
    intro x' hx'
    split_ifs with e
    · obtain ⟨u, v⟩ := src y x' (by omega) hx'
      exact ⟨le_trans hle u, by nlinarith⟩
    · exact pass1_of (fixedRound_range (nv _ tv _) sv hm0 hM0 he hmh fun k hk => src _ _ (by omega) hx')
  unfold pxD
  rw [o4 y x c hy hx hc, Option.getD_some]
  unfold separable
  dsimp only
  by_cases e : store.width = into.width
  · rw [if_pos e]
    obtain ⟨u, v⟩ := col x (by omega)
    have := le_max_left (0 : ℚ) ((m : ℚ) * (1 - sumErr n) - 1)
    exact pass2 he he1 hm0 hM0 ⟨by nlinarith, by nlinarith⟩
  · rw [if_neg e]
    exact pass2 he he1 hm0 hM0 (fixedRound_range (nh _ th _) sh (le_max_left _ _) (by nlinarith) he (le_trans hle hmh)
      fun k hk => col _ (by omega))

/-- For windows of up to sixteen taps and twelve bits: at most three levels below, at most four above. -/
theorem C274_levels {n m M v : ℕ} (hn : n ≤ 16) (hM : M ≤ 4095) (hm : m ≤ M) (h : InRange2 (sumErr n) m M v) :
    m ≤ v + 4 ∧ v ≤ M + 3 := by
  have hn' : (n : ℚ) ≤ 16 := by exact_mod_cast hn
  have hM' : (M : ℚ) ≤ 4095 := by exact_mod_cast hM
  have hm' : (m : ℚ) ≤ M := by exact_mod_cast hm
  have hm0 : (0 : ℚ) ≤ m := by positivity
  have e1 : sumErr n ≤ 3 / 10000 := by
    unfold sumErr
    rw [div_le_iff₀ (by positivity)]
    linarith
  have e0 := sumErr_pos n
  generalize sumErr n = e at *
  obtain ⟨a, b⟩ := h
  constructor
  · have c : (m : ℚ) - 5 < v := by
      have c1 : (m : ℚ) * e ≤ 4095 * (3 / 10000) := mul_le_mul (by linarith) e1 e0.le (by norm_num)
      have c2 : (m : ℚ) * (1 - e) ^ 2 = m - 2 * (m * e) + m * e ^ 2 := by ring
      have c3 : 0 ≤ (m : ℚ) * e ^ 2 := by positivity
      linarith
    have : (m : ℚ) < ((v + 5 : ℕ) : ℚ) := by push_cast; linarith
    have : m < v + 5 := by exact_mod_cast this
    omega
  · have d : (1 + e) ^ 2 ≤ 1 + 601 / 1000000 := by nlinarith
    have c : (v : ℚ) < M + 4 := by
      have : ((M : ℚ) + 1) * (1 + e) ^ 2 ≤ (M + 1) * (1 + 601 / 1000000) := mul_le_mul_of_nonneg_left d (by linarith)
      nlinarith
    have : (v : ℚ) < ((M + 4 : ℕ) : ℚ) := by push_cast; linarith
    have : v < M + 4 := by exact_mod_cast this
    omega

/-! ### the hypotheses are met -/

theorem Demo.urange : RangeCall (2 ^ 64) 4 16 demoLib .bilinear (Demo.usrc 10) (Demo.udst 10) 0 1023 := by
  have s : ∀ y < 5, ∀ x < 8, ∀ c < 4, pxD 0 (Demo.usrc 10).buffer 32 4 y x c ≤ 1023 := by decide +kernel
  have tb : ∀ (inn out : ℕ), ((tableOf demoLib .bilinear inn out).map fun t => decide (t.kernelSize ≤ 16)) = some true →
      1 ≤ inn → inn ≤ 2 ^ 23 → ∀ q, IsTable demoLib .bilinear inn out q → AtMostTaps 16 q out := by
    intro inn out ht h1 h2 q hq i hi
    obtain ⟨fw, e, rfl⟩ := hq
    obtain ⟨fw', e', v, sh⟩ := table_exists demoLib .bilinear (out := out) h1 h2 (by simp)
    rw [e] at e' ht
    obtain rfl := Option.some.inj e'
    have : fw.kernelSize ≤ 16 := by simpa using ht
    have hv := v.size_le i hi
    rw [← sh.1] at hv
    exact le_trans hv (by simpa using this)
  exact ⟨by decide, Demo.ucall10, by decide, by decide, by decide +kernel, by decide, by norm_num,
    ⟨tb _ _ (by decide +kernel) (by decide) (by decide), tb _ _ (by decide +kernel) (by decide) (by decide)⟩,
    fun y x c hy hx hc => ⟨Nat.zero_le _, s y hy x hx c hc⟩⟩

example (cpu : Cpu) (fma fused : Bool) :
    ∃ out, genericResize (2 ^ 64) 4 (formatU16X86 cpu fma fused 4) demoLib .bilinear (Demo.usrc 10) (Demo.udst 10) =
      some (.ok (), out) := by
  obtain ⟨out, o, _⟩ := C274_range_u16 Demo.urange cpu fma fused
  exact ⟨out, o⟩

example : ∃ v, InRange2 (sumErr 16) 100 4000 v ∧ 100 ≤ v + 4 := by
  refine ⟨4000, ⟨?_, ?_⟩, by norm_num⟩ <;> · unfold sumErr; norm_num

end PicScale
