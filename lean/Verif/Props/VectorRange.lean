import Verif.Lemmas.VectorMono

/-!
Property theorems C210 – C214: averaging filters on 8-bit images never invert an order between pictures and never
leave the range of the source samples (or leave it by a stated amount), on every target.
-/

namespace PicScale

open Finset F32 Spec

/-! ### C210, C211: monotonicity -/

/-- `store'` is a picture of the same size as `store` with samples at least as large. -/
structure Brighter (N : ℕ) (store store' : Image ℕ) : Prop where
  width : store.width = store'.width
  height : store.height = store'.height
  samples : ∀ y x c, y < store.height → x < store.width → c < N →
    pxD 0 store.buffer (store.strideOf N) N y x c ≤ pxD 0 store'.buffer (store'.strideOf N) N y x c

theorem selectH_low {cpu : Cpu} {s : Workload} {N sw sh dw dh : ℕ}
    (h : (selectH cpu s N sw sh dw dh).low ∨ selectH cpu s N sw sh dw dh = .rgbaAvxLb) : s = .preferSpeed := by
  by_contra hs
  revert h
  unfold selectH
  split <;> split_ifs <;> simp_all [HKernel.low]

theorem selectV_low {cpu : Cpu} {s : Workload} {sh dh : ℕ}
    (h : selectV cpu s sh dh = .sseLp ∨ selectV cpu s sh dh = .avxLp) : s = .preferSpeed := by
  by_contra hs
  revert h
  unfold selectV
  split_ifs <;> simp_all

theorem selectH_alpha {cpu : Cpu} {s : Workload} {N sw sh dw dh : ℕ} (hN : 1 ≤ N ∧ N ≤ 4)
    (h : selectH cpu s N sw sh dw dh = .rgbaAvxLb) : N = 4 := by
  obtain ⟨n1, n4⟩ := hN
  interval_cases N
  · revert h; unfold selectH; split_ifs <;> simp
  · revert h; unfold selectH; split_ifs <;> simp
  · revert h; unfold selectH; split_ifs <;> simp
  · rfl

theorem below8_scalar_value {N : ℕ} {cpu : Cpu} {s : Workload} {sw sh dw dh : ℕ} (hN : 1 ≤ N ∧ N ≤ 4) :
    (selectH cpu s N sw sh dw dh).fits N := by
  obtain ⟨n1, n4⟩ := hN
  interval_cases N <;> unfold selectH <;> split_ifs <;> decide

/-- **C210.** On x86, whatever the CPU and the strategy: with a filter without negative weights, raising source samples
never lowers an output sample. With the default strategy the 16-bit accumulators must not overflow (`NoOverflow16`
holds of the support-two averaging filters up to 21000 taps, `C115_low_precision`). -/
theorem C210_x86_monotone {cpu : Cpu} {s : Workload} {W N : ℕ} {L : Lib} {r : ResamplingFunction} (hr : Averages L r)
    {store store' into out out' : Image ℕ}
    (h : AcceptedCall W N r store into) (h' : AcceptedCall W N r store' into)
    (hb : ∀ v ∈ store.buffer, v ≤ 255) (hb' : ∀ v ∈ store'.buffer, v ≤ 255)
    (hc : CpuFits cpu s N store into) (h16 : s = .preferSpeed → BothTables L r store into NoOverflow16)
    (hp : Brighter N store store')
    (ho : genericResize W N (formatX86 cpu s N) L r store into = some (.ok (), out))
    (ho' : genericResize W N (formatX86 cpu s N) L r store' into = some (.ok (), out')) :
    ∀ y x c, y < into.height → x < into.width → c < N →
      (N = 4 → c = 3 → s = .preferSpeed → ∀ q, IsTable L r store.width into.width q → AlphaFits q x) →
      pxD 0 out.buffer (into.strideOf N) N y x c ≤ pxD 0 out'.buffer (into.strideOf N) N y x c := by
  obtain ⟨_, _, c3, _⟩ := checkResize_ok.1 h.checked
  have hc' : CpuFits cpu s N store' into := by unfold CpuFits at hc ⊢; rwa [← hp.width]
  obtain ⟨qv, qh, o, tv, th, Tv, Th, Wv, Wh, o1, _, _, o4⟩ := x86_values (h.u8X86 (L := L) hr hb) hc
  obtain ⟨qv', qh', o', tv', th', _, _, _, _, o1', _, _, o4'⟩ := x86_values (h'.u8X86 (L := L) hr hb') hc'
  rw [← hp.height] at tv'
  rw [← hp.width] at th'
  obtain rfl := isTable_unique tv tv'
  obtain rfl := isTable_unique th th'
  rw [ho] at o1
  obtain rfl : out = o := by simpa using o1
  rw [ho'] at o1'
  obtain rfl : out' = o' := by simpa using o1'
  have nv := table_nonneg hr c3.2.1 h.small.2 (fun ha => (h.area ha).2) tv
  have nh := table_nonneg hr c3.1 h.small.1 (fun ha => (h.area ha).1) th
  intro y x c hy hx hcc hal
  unfold pxD
  rw [o4 y x c hy hx hcc, o4' y x c hy hx hcc, ← hp.width, ← hp.height]
  simp only [Option.getD_some]
  refine sepAbs_mono hy hx (pxD_byte hb N c) (pxD_byte hb' N c) (fun y' x' hy' hx' => hp.samples y' x' c hy' hx' hcc)
    (fun _ _ => VKernel.value_le _ _ _ _ _ _) ?_ ?_
  · intro _ x' P P' A
    exact VKernel.value_mono Tv hy nv Wv (fun hk => (h16 (selectV_low hk)).1 qv tv) A
  · intro _ P P' A
    exact HKernel.value_mono h.channels hcc (below8_scalar_value h.channels) c3.1 Th hx nh Wh
      ((h.u8X86 (L := L) hr hb).noOverflow.2 qh th) (fun hk => (h16 (selectH_low hk)).2 qh th)
      (fun hk h3 => hal (selectH_alpha h.channels hk) h3 (selectH_low (Or.inr hk)) qh th) A

/-- Examples: the RGBA picture of C52, and one with samples 10 larger (255 at most). -/
def Demo.xbright : Image ℕ :=
  { Demo.xsrc with buffer := Demo.xsrc.buffer.map fun v => min 255 (v + 10) }

theorem Demo.brighter : Brighter 4 Demo.xsrc Demo.xbright := by
  refine ⟨rfl, rfl, ?_⟩
  have : ∀ y < 4, ∀ x < 3, ∀ c < 4, pxD 0 Demo.xsrc.buffer (Demo.xsrc.strideOf 4) 4 y x c ≤
      pxD 0 Demo.xbright.buffer (Demo.xbright.strideOf 4) 4 y x c := by decide +kernel
  exact fun y x c hy hx hc => this y hy x hx c hc

example : ∃ out out', genericResize (2 ^ 64) 4 (formatX86 ⟨true, true⟩ .preferSpeed 4) demoLib .bilinear Demo.xsrc Demo.xdst =
      some (.ok (), out) ∧
    genericResize (2 ^ 64) 4 (formatX86 ⟨true, true⟩ .preferSpeed 4) demoLib .bilinear Demo.xbright Demo.xdst =
      some (.ok (), out') ∧ pxD 0 out.buffer 21 4 1 4 2 ≤ pxD 0 out'.buffer 21 4 1 4 2 := by
  have hc : CpuFits ⟨true, true⟩ .preferSpeed 4 Demo.xsrc Demo.xdst := Or.inr (Or.inr (Or.inl rfl))
  have hc' : CpuFits ⟨true, true⟩ .preferSpeed 4 Demo.xbright Demo.xdst := Or.inr (Or.inr (Or.inl rfl))
  have b : AcceptedCall (2 ^ 64) 4 .bilinear Demo.xbright Demo.xdst := by constructor <;> decide +kernel
  have b1 : ∀ v ∈ Demo.xbright.buffer, v ≤ 255 := by decide +kernel
  obtain ⟨out, o1, _⟩ := C52_no_oob (L := demoLib) Demo.xcall hc
  obtain ⟨out', o1', _⟩ := C52_no_oob (L := demoLib) b hc'
  exact ⟨out, out', o1, o1', C210_x86_monotone (Or.inl (by decide)) Demo.xcall b Demo.xaccepted.bytes b1 hc (fun _ => Demo.x16)
    Demo.brighter o1 o1' 1 4 2 (by decide) (by decide) (by decide) (by intro _ h; exact absurd h (by decide))⟩

/-- The condition on alpha windows with more than 8 taps is met, for example, by a box of 16 equal weights. -/
example : AlphaFits ⟨List.replicate 16 2048, [⟨0, 16⟩], 16, 16, 1⟩ 0 := Or.inr (by decide +kernel)

/-- **C211.** On AArch64, with or without `rdm`, whatever the strategy: with a filter without negative weights, raising
source samples never lowers an output sample. -/
theorem C211_neon_monotone {rdm : Bool} {s : Workload} {W N : ℕ} {L : Lib} {r : ResamplingFunction} (hr : Averages L r)
    {store store' into out out' : Image ℕ}
    (h : AcceptedCall W N r store into) (h' : AcceptedCall W N r store' into)
    (hb : ∀ v ∈ store.buffer, v ≤ 255) (hb' : ∀ v ∈ store'.buffer, v ≤ 255)
    (h16 : rdm = true → s = .preferSpeed → BothTables L r store into NoOverflow16) (hp : Brighter N store store')
    (ho : genericResize W N (formatNeon rdm s N) L r store into = some (.ok (), out))
    (ho' : genericResize W N (formatNeon rdm s N) L r store' into = some (.ok (), out')) :
    ∀ y x c, y < into.height → x < into.width → c < N →
      pxD 0 out.buffer (into.strideOf N) N y x c ≤ pxD 0 out'.buffer (into.strideOf N) N y x c := by
  obtain ⟨_, _, c3, _⟩ := checkResize_ok.1 h.checked
  have hlow : ∀ sw sh dw dh, selectNeonH rdm s N sw sh dw dh = .rdm → rdm = true ∧ s = .preferSpeed := by
    intro sw sh dw dh
    obtain ⟨n1, n4⟩ := h.channels
    cases rdm <;> cases s <;> interval_cases N <;> unfold selectNeonH <;> simp
  have h16' : BothTables L r store into NoOverflow16 → BothTables L r store' into NoOverflow16 := by
    unfold BothTables
    rw [hp.width, hp.height]
    exact id
  obtain ⟨qv, qh, o, tv, th, Tv, Th, Wv, Wh, o1, _, _, o4⟩ := neon_values (rdm := rdm) (s := s) (h.u8X86 (L := L) hr hb)
    (fun hk => h16 (hlow _ _ _ _ hk).1 (hlow _ _ _ _ hk).2)
  obtain ⟨qv', qh', o', tv', th', _, _, _, _, o1', _, _, o4'⟩ := neon_values (rdm := rdm) (s := s) (h'.u8X86 (L := L) hr hb')
    (fun hk => h16' (h16 (hlow _ _ _ _ hk).1 (hlow _ _ _ _ hk).2))
  rw [← hp.height] at tv'
  rw [← hp.width] at th'
  obtain rfl := isTable_unique tv tv'
  obtain rfl := isTable_unique th th'
  rw [ho] at o1
  obtain rfl : out = o := by simpa using o1
  rw [ho'] at o1'
  obtain rfl : out' = o' := by simpa using o1'
  have nv := table_nonneg hr c3.2.1 h.small.2 (fun ha => (h.area ha).2) tv
  have nh := table_nonneg hr c3.1 h.small.1 (fun ha => (h.area ha).1) th
  intro y x c hy hx hcc
  unfold pxD
  rw [o4 y x c hy hx hcc, o4' y x c hy hx hcc, ← hp.width, ← hp.height]
  simp only [Option.getD_some]
  refine sepAbs_mono hy hx (pxD_byte hb N c) (pxD_byte hb' N c) (fun y' x' hy' hx' => hp.samples y' x' c hy' hx' hcc)
    (fun _ _ => NeonV.value_le _ _ _ _ _ _) ?_ ?_
  · intro _ x' P P' A
    exact NeonV.value_mono Tv hy nv Wv ((h.u8X86 (L := L) hr hb).noOverflow.1 qv tv) A
  · intro _ P P' A
    exact NeonH.value_mono Th hx nh A

example : ∃ out out', genericResize (2 ^ 64) 4 (formatNeon true .preferSpeed 4) demoLib .bilinear Demo.xsrc Demo.xdst =
      some (.ok (), out) ∧
    genericResize (2 ^ 64) 4 (formatNeon true .preferSpeed 4) demoLib .bilinear Demo.xbright Demo.xdst =
      some (.ok (), out') ∧ pxD 0 out.buffer 21 4 1 4 3 ≤ pxD 0 out'.buffer 21 4 1 4 3 := by
  have b : AcceptedCall (2 ^ 64) 4 .bilinear Demo.xbright Demo.xdst := by constructor <;> decide +kernel
  have b1 : ∀ v ∈ Demo.xbright.buffer, v ≤ 255 := by decide +kernel
  have b16 : BothTables demoLib .bilinear Demo.xbright Demo.xdst NoOverflow16 := Demo.x16
  obtain ⟨_, _, out, _, _, _, _, _, _, o1, _⟩ := neon_values (rdm := true) (s := .preferSpeed) Demo.xaccepted fun _ => Demo.x16
  obtain ⟨_, _, out', _, _, _, _, _, _, o1', _⟩ := neon_values (rdm := true) (s := .preferSpeed)
    (b.u8X86 (L := demoLib) (Or.inl (by decide)) b1) fun _ => b16
  exact ⟨out, out', o1, o1', C211_neon_monotone (Or.inl (by decide)) Demo.xcall b Demo.xaccepted.bytes b1 (fun _ _ => Demo.x16)
    Demo.brighter o1 o1' 1 4 3 (by decide) (by decide) (by decide)⟩

/-! ### C212 – C214: the range of the samples -/

theorem flat_roundDown {n v : ℕ} {w : ℕ → ℤ} (hv : v ≤ 255)
    (hs : |(∑ k ∈ range n, w k) - 32768| ≤ 64) : fixedRoundDown n w (fun _ => v) = v := by
  unfold fixedRoundDown fixRoundDown
  rw [wsum_const]
  set s := ∑ k ∈ range n, w k with hsd
  rw [abs_le] at hs
  have h1 : (s - 32768) * v ≤ 64 * 255 := by
    have : (s - 32768) * (v : ℤ) ≤ 64 * v := mul_le_mul_of_nonneg_right (by omega) (by omega)
    omega
  have h2 : -(64 * 255) ≤ (s - 32768) * (v : ℤ) := by
    have : (-64) * (v : ℤ) ≤ (s - 32768) * v := mul_le_mul_of_nonneg_right (by omega) (by omega)
    omega
  have e : ⌈((s * (v : ℤ) : ℤ) : ℚ) / 32768 - 1 / 2⌉ = v := by
    have h3 : (s * (v : ℤ) : ℤ) = 32768 * v + (s - 32768) * v := by ring
    rw [h3]
    generalize (s - 32768) * (v : ℤ) = t at *
    rw [Int.ceil_eq_iff]
    have a1 : (t : ℚ) ≤ 64 * 255 := by exact_mod_cast h1
    have a2 : -(64 * 255) ≤ (t : ℚ) := by exact_mod_cast h2
    push_cast
    constructor
    · rw [lt_sub_iff_add_lt, lt_div_iff₀ (by norm_num)]; linarith
    · rw [sub_le_iff_le_add, div_le_iff₀ (by norm_num)]; linarith
  rw [e]
  unfold clamp
  omega

/-- A low precision pass over at most 40 taps maps a constant to itself or to the next value. -/
theorem flat_low {n v : ℕ} {w : ℕ → ℤ} (hv : v ≤ 255) (hn : n ≤ 40)
    (hs : |(∑ k ∈ range n, w k) - 32768| ≤ 21) :
    v ≤ fixedLow n w (fun _ => v) ∧ fixedLow n w (fun _ => v) ≤ v + 1 := by
  set A : ℕ := 257 * v / 4 with hA
  set S := ∑ k ∈ range n, w k with hS
  have hterm : ∀ k, |((lowTerm v (w k) : ℤ) : ℚ) - (A : ℚ) * w k / 32768| ≤ 1 / 2 := by
    intro k
    unfold lowTerm
    have h1 := Int.floor_le ((A : ℚ) * w k / 32768 + 1 / 2)
    have h2 := Int.lt_floor_add_one ((A : ℚ) * w k / 32768 + 1 / 2)
    rw [abs_le]
    constructor <;> linarith
  have hsum : |((∑ k ∈ range n, lowTerm v (w k) : ℤ) : ℚ) - (A : ℚ) * S / 32768| ≤ n / 2 := by
    have e : ((∑ k ∈ range n, lowTerm v (w k) : ℤ) : ℚ) - (A : ℚ) * S / 32768 =
        ∑ k ∈ range n, (((lowTerm v (w k) : ℤ) : ℚ) - (A : ℚ) * w k / 32768) := by
      rw [sum_sub_distrib, hS]
      push_cast
      rw [mul_sum, sum_div]
    rw [e]
    refine le_trans (abs_sum_le_sum_abs _ _) (le_trans (sum_le_sum fun k _ => hterm k) ?_)
    rw [sum_const, card_range, nsmul_eq_mul]
    linarith
  have hAl : 64 * v ≤ A := by omega
  have hAu : A ≤ 64 * v + 63 := by omega
  have hA2 : (A : ℚ) ≤ 16384 := by exact_mod_cast (by omega : A ≤ 16384)
  have hA0 : (0 : ℚ) ≤ A := by positivity
  have hAl' : (64 : ℚ) * v ≤ A := by exact_mod_cast hAl
  have hAu' : (A : ℚ) ≤ 64 * v + 63 := by exact_mod_cast hAu
  have hn' : (n : ℚ) ≤ 40 := by exact_mod_cast hn
  rw [abs_le] at hs hsum
  have s1 : (S : ℚ) ≤ 32768 + 21 := by exact_mod_cast (by omega : S ≤ 32768 + 21)
  have s2 : (32768 : ℚ) - 21 ≤ S := by exact_mod_cast (by omega : 32768 - 21 ≤ S)
  have u1 : (A : ℚ) * S / 32768 ≤ A + 21 / 2 := by
    rw [div_le_iff₀ (by norm_num)]
    nlinarith
  have u2 : (A : ℚ) - 21 / 2 ≤ (A : ℚ) * S / 32768 := by
    rw [le_div_iff₀ (by norm_num)]
    nlinarith
  set T := ∑ k ∈ range n, lowTerm v (w k) with hT
  have f1 : (v : ℤ) ≤ ⌊(T : ℚ) / 64 + 1 / 2⌋ := by
    rw [Int.le_floor]
    push_cast
    rw [← sub_le_iff_le_add, le_div_iff₀ (by norm_num)]
    linarith [hsum.1]
  have f2 : ⌊(T : ℚ) / 64 + 1 / 2⌋ < (v : ℤ) + 2 := by
    rw [Int.floor_lt]
    push_cast
    rw [← lt_sub_iff_add_lt, div_lt_iff₀ (by norm_num)]
    linarith [hsum.2]
  unfold fixedLow
  rw [← hT]
  unfold clamp
  generalize ⌊(T : ℚ) / 64 + 1 / 2⌋ = z at *
  omega

/-- All samples of channel `c` lie between `lo` and `hi`. -/
def InRange (N c lo hi : ℕ) (img : Image ℕ) : Prop :=
  ∀ y, y < img.height → ∀ x, x < img.width →
    lo ≤ pxD 0 img.buffer (img.strideOf N) N y x c ∧ pxD 0 img.buffer (img.strideOf N) N y x c ≤ hi

/-- 1 if a dimension changes. -/
def changed (a b : ℕ) : ℕ := if a = b then 0 else 1

theorem separable_range {sw sh dw dh y x : ℕ} {qv qh : FilterWeights ℤ} {vv hv : ℕ → (ℕ → ℕ) → ℕ} {p : ℕ → ℕ → ℕ}
    {lo hi lo1 hi1 lo2 hi2 : ℕ} (Tv : ValidTable qv sh dh) (Th : ValidTable qh sw dw) (hy : y < dh) (hx : x < dw)
    (hp : ∀ y' x', y' < sh → x' < sw → lo ≤ p y' x' ∧ p y' x' ≤ hi)
    (hV0 : sh = dh → lo1 ≤ lo ∧ hi ≤ hi1)
    (hV : sh ≠ dh → ∀ P : ℕ → ℕ, (∀ k, k < (qv.bound y).size → lo ≤ P k ∧ P k ≤ hi) → lo1 ≤ vv y P ∧ vv y P ≤ hi1)
    (hH0 : sw = dw → lo2 ≤ lo1 ∧ hi1 ≤ hi2)
    (hH : sw ≠ dw → ∀ P : ℕ → ℕ, (∀ k, k < (qh.bound x).size → lo1 ≤ P k ∧ P k ≤ hi1) → lo2 ≤ hv x P ∧ hv x P ≤ hi2) :
    lo2 ≤ separable sw sh dw dh (fun i => (qv.bound i).start) vv (fun i => (qh.bound i).start) hv p y x ∧
      separable sw sh dw dh (fun i => (qv.bound i).start) vv (fun i => (qh.bound i).start) hv p y x ≤ hi2 := by
  have hin := Tv.inside y hy
  have hin' := Th.inside x hx
  have hcol : ∀ x', x' < sw → lo1 ≤ (if sh = dh then p y x' else vv y (fun k => p ((qv.bound y).start + k) x')) ∧
      (if sh = dh then p y x' else vv y (fun k => p ((qv.bound y).start + k) x')) ≤ hi1 := by
    intro x' hx'
    by_cases hd : sh = dh
    · rw [if_pos hd]
      obtain ⟨a, b⟩ := hV0 hd
      obtain ⟨a', b'⟩ := hp y x' (by omega) hx'
      omega
    · rw [if_neg hd]
      exact hV hd _ fun k hk => hp _ _ (by omega) hx'
  unfold separable
  dsimp only
  by_cases hd : sw = dw
  · rw [if_pos hd]
    obtain ⟨a, b⟩ := hH0 hd
    obtain ⟨a', b'⟩ := hcol x (by omega)
    omega
  · rw [if_neg hd]
    exact hH hd _ fun k hk => hcol _ (by omega)

section
variable {n lo hi : ℕ} {w : ℕ → ℤ} {P : ℕ → ℕ}

theorem range_round (h0 : ∀ k, 0 ≤ w k) (hs : |(∑ k ∈ range n, w k) - 32768| ≤ 64) (hl : lo ≤ 255) (hh : hi ≤ 255)
    (h : ∀ k, k < n → lo ≤ P k ∧ P k ≤ hi) : lo ≤ fixedRound 255 n w P ∧ fixedRound 255 n w P ≤ hi := by
  have a := fixedRound_mono (hi := 255) (p := fun _ => lo) h0 fun k hk => (h k hk).1
  have b := fixedRound_mono (hi := 255) (p' := fun _ => hi) h0 fun k hk => (h k hk).2
  rw [flat_round hl hs] at a
  rw [flat_round hh hs] at b
  exact ⟨a, b⟩

theorem range_roundDown (h0 : ∀ k, 0 ≤ w k) (hs : |(∑ k ∈ range n, w k) - 32768| ≤ 64) (hl : lo ≤ 255) (hh : hi ≤ 255)
    (h : ∀ k, k < n → lo ≤ P k ∧ P k ≤ hi) : lo ≤ fixedRoundDown n w P ∧ fixedRoundDown n w P ≤ hi := by
  have a := fixedRoundDown_mono (p := fun _ => lo) h0 fun k hk => (h k hk).1
  have b := fixedRoundDown_mono (p' := fun _ => hi) h0 fun k hk => (h k hk).2
  rw [flat_roundDown hl hs] at a
  rw [flat_roundDown hh hs] at b
  exact ⟨a, b⟩

theorem range_floor (h0 : ∀ k, 0 ≤ w k) (hs : |(∑ k ∈ range n, w k) - 32768| ≤ 64) (hl : lo ≤ 255) (hh : hi ≤ 255)
    (h : ∀ k, k < n → lo ≤ P k ∧ P k ≤ hi) : lo - 1 ≤ fixedFloor 255 n w P ∧ fixedFloor 255 n w P ≤ hi := by
  have a := fixedFloor_mono (hi := 255) (p := fun _ => lo) h0 fun k hk => (h k hk).1
  have b := fixedFloor_mono (hi := 255) (p' := fun _ => hi) h0 fun k hk => (h k hk).2
  have := flat_floor hl hs
  have := flat_floor hh hs
  omega

theorem range_low (h0 : ∀ k, 0 ≤ w k) (hn : n ≤ 40) (hs : |(∑ k ∈ range n, w k) - 32768| ≤ 21) (hl : lo ≤ 255) (hh : hi ≤ 255)
    (h : ∀ k, k < n → lo ≤ P k ∧ P k ≤ hi) : lo ≤ fixedLow n w P ∧ fixedLow n w P ≤ min 255 (hi + 1) := by
  have a := fixedLow_mono (p := fun _ => lo) h0 fun k hk => (h k hk).1
  have b := fixedLow_mono (p' := fun _ => hi) h0 fun k hk => (h k hk).2
  have := flat_low hl hn hs
  have := flat_low hh hn hs
  have c : fixedLow n w P ≤ 255 := clamp_le _ _
  omega

end

/-- The windows have at most 40 taps. -/
def Taps40 (q : FilterWeights ℤ) (out : ℕ) : Prop := ∀ i, i < out → (q.bound i).size ≤ 40

theorem near21 {L : Lib} {r : ResamplingFunction} (hr : r ∈ averaging2) {inn out : ℕ} {q : FilterWeights ℤ}
    (h1 : 1 ≤ inn) (h2 : inn ≤ 2 ^ 23) (ha : r = .area → out ≤ 2 ^ 22) (hq : IsTable L r inn out q)
    (ht : Taps40 q out) {i : ℕ} (hi : i < out) :
    |(∑ k ∈ range (q.bound i).size, q.weight i k) - 32768| ≤ 21 := by
  have := quantised_near hr h1 h2 ha hq hi
  have h3 : ((q.bound i).size : ℚ) ≤ 40 := by exact_mod_cast ht i hi
  have h4 : |((∑ k ∈ range (q.bound i).size, q.weight i k : ℤ) : ℚ) - 32768| < 22 := lt_of_le_of_lt this (by linarith)
  have h5 : (((∑ k ∈ range (q.bound i).size, q.weight i k) - 32768 : ℤ) : ℚ) =
      ((∑ k ∈ range (q.bound i).size, q.weight i k : ℤ) : ℚ) - 32768 := by push_cast; rfl
  rw [← h5, ← Int.cast_abs] at h4
  have : |(∑ k ∈ range (q.bound i).size, q.weight i k) - 32768| < 22 := by exact_mod_cast h4
  omega

theorem InRange.le255 {N c lo hi : ℕ} {img : Image ℕ} (h : InRange N c lo hi img) (hb : ∀ v ∈ img.buffer, v ≤ 255)
    (hh : 0 < img.height) (hw : 0 < img.width) : lo ≤ 255 ∧ InRange N c lo (min 255 hi) img := by
  refine ⟨le_trans (h 0 hh 0 hw).1 (pxD_byte hb N c _ _), fun y hy x hx => ⟨(h y hy x hx).1, ?_⟩⟩
  have := (h y hy x hx).2
  have := pxD_byte hb N c y x
  omega

/-- **C212.** The portable code, support-two averaging filters, at most 124 taps: if the source samples of a channel
lie between `lo` and `hi`, so do the destination samples, except that a vertical pass may give `lo - 1`. -/
theorem C212_range_portable {W N : ℕ} {L : Lib} {r : ResamplingFunction} {store into : Image ℕ}
    (hr : r ∈ averaging2) (h : AcceptedCall W N r store into) (hb : ∀ v ∈ store.buffer, v ≤ 255)
    (ht : BothTables L r store into Taps124) :
    ∃ out, genericResize W N (formatU8 N) L r store into = some (.ok (), out) ∧
      ∀ c lo hi, c < N → InRange N c lo hi store → ∀ y x, y < into.height → x < into.width →
        ∃ v, sample out.buffer (into.strideOf N) N y x c = some v ∧ lo - changed store.height into.height ≤ v ∧ v ≤ hi := by
  have hr' := averages_of2 (L := L) hr
  obtain ⟨_, _, c3, _⟩ := checkResize_ok.1 h.checked
  have hA : Accepted W N L r store into := h.u8 hr' hb
  obtain ⟨qv, qh, out, tv, th, Tv, Th, o1, _, _, o4⟩ := C21_separable hA
  refine ⟨out, o1, fun c lo hi hc hI y x hy hx => ⟨_, o4 y x c hy hx hc, ?_⟩⟩
  obtain ⟨hl, hI'⟩ := hI.le255 hb c3.2.1 c3.1
  have nv := table_nonneg hr' c3.2.1 h.small.2 (fun ha => (h.area ha).2) tv
  have nh := table_nonneg hr' c3.1 h.small.1 (fun ha => (h.area ha).1) th
  have sv := near64 hr c3.2.1 h.small.2 (fun a => (h.area a).2) tv (ht.1 _ tv) hy
  have sh := near64 hr c3.1 h.small.1 (fun a => (h.area a).1) th (ht.2 _ th) hx
  have := separable_range (lo := lo) (hi := min 255 hi) (lo1 := lo - changed store.height into.height) (hi1 := min 255 hi)
    (lo2 := lo - changed store.height into.height) (hi2 := min 255 hi)
    (vv := fun i p => fixedFloor 255 (qv.bound i).size (fun k => qv.weight i k) p)
    (hv := fun i p => fixedRound 255 (qh.bound i).size (fun k => qh.weight i k) p) Tv Th hy hx (fun y' x' a b => hI' y' a x' b)
    (fun e => by omega)
    (fun hne P hP => by
      have := range_floor (nv y) sv hl (by omega) hP
      unfold changed
      rwa [if_neg hne])
    (fun e => by omega)
    (fun hne P hP => range_round (nh x) sh (by omega) (by omega) hP)
  omega

/-- **C213.** On x86 with `PreferQuality` (the CPUs and channel counts of `C53_quality_partial`), support-two averaging
filters, at most 124 taps: if the source samples of a channel lie between `lo` and `hi`, so do the destination samples.
In particular flat pictures stay flat. -/
theorem C213_range_x86_quality {cpu : Cpu} {W N : ℕ} {L : Lib} {r : ResamplingFunction} {store into : Image ℕ}
    (hr : r ∈ averaging2) (h : AcceptedCall W N r store into) (hb : ∀ v ∈ store.buffer, v ≤ 255)
    (hc : (cpu.avx2 = true ∧ (N ≠ 3 ∨ store.width = into.width)) ∨
      (cpu.avx2 = false ∧ cpu.sse41 = true ∧ (store.width * N ≤ 32 ∨ store.height = into.height)))
    (ht : BothTables L r store into Taps124) :
    ∃ out, genericResize W N (formatX86 cpu .preferQuality N) L r store into = some (.ok (), out) ∧
      ∀ c lo hi, c < N → InRange N c lo hi store → ∀ y x, y < into.height → x < into.width →
        ∃ v, sample out.buffer (into.strideOf N) N y x c = some v ∧ lo ≤ v ∧ v ≤ hi := by
  have hr' := averages_of2 (L := L) hr
  obtain ⟨_, _, c3, _⟩ := checkResize_ok.1 h.checked
  obtain ⟨qv, qh, out, tv, th, Tv, Th, o1, _, _, o4⟩ := C53_quality_partial (h.u8X86 (L := L) hr' hb) hc
  refine ⟨out, o1, fun c lo hi hc hI y x hy hx => ⟨_, o4 y x c hy hx hc, ?_⟩⟩
  obtain ⟨hl, hI'⟩ := hI.le255 hb c3.2.1 c3.1
  have nv := table_nonneg hr' c3.2.1 h.small.2 (fun ha => (h.area ha).2) tv
  have nh := table_nonneg hr' c3.1 h.small.1 (fun ha => (h.area ha).1) th
  have sv := near64 hr c3.2.1 h.small.2 (fun a => (h.area a).2) tv (ht.1 _ tv) hy
  have sh := near64 hr c3.1 h.small.1 (fun a => (h.area a).1) th (ht.2 _ th) hx
  have := separable_range (lo := lo) (hi := min 255 hi) (lo1 := lo) (hi1 := min 255 hi) (lo2 := lo) (hi2 := min 255 hi)
    (vv := fun i p => fixedRound 255 (qv.bound i).size (fun k => qv.weight i k) p)
    (hv := fun i p => fixedRound 255 (qh.bound i).size (fun k => qh.weight i k) p) Tv Th hy hx (fun y' x' a b => hI' y' a x' b)
    (fun e => by omega)
    (fun hne P hP => range_round (nv y) sv hl (by omega) hP)
    (fun e => by omega)
    (fun hne P hP => range_round (nh x) sh (by omega) (by omega) hP)
  omega

/-- The two passes of the low precision handlers. -/
theorem low_range {L : Lib} {r : ResamplingFunction} {W N c lo hi y x : ℕ} {store into : Image ℕ} {qv qh : FilterWeights ℤ}
    (hr : r ∈ averaging2) (h : AcceptedCall W N r store into) (hb : ∀ v ∈ store.buffer, v ≤ 255)
    (ht : BothTables L r store into Taps40) (hI : InRange N c lo hi store)
    (tv : IsTable L r store.height into.height qv) (th : IsTable L r store.width into.width qh)
    (Tv : ValidTable qv store.height into.height) (Th : ValidTable qh store.width into.width)
    (hy : y < into.height) (hx : x < into.width) :
    lo ≤ separable store.width store.height into.width into.height
            (fun i => (qv.bound i).start)
            (fun i p => fixedLow (qv.bound i).size (fun k => qv.weight i k) p)
            (fun i => (qh.bound i).start)
            (fun i p => fixedLow (qh.bound i).size (fun k => qh.weight i k) p)
            (fun y x => pxD 0 store.buffer (store.strideOf N) N y x c) y x ∧
    separable store.width store.height into.width into.height
            (fun i => (qv.bound i).start)
            (fun i p => fixedLow (qv.bound i).size (fun k => qv.weight i k) p)
            (fun i => (qh.bound i).start)
            (fun i p => fixedLow (qh.bound i).size (fun k => qh.weight i k) p)
            (fun y x => pxD 0 store.buffer (store.strideOf N) N y x c) y x ≤
      hi + changed store.height into.height + changed store.width into.width := by
  have hr' := averages_of2 (L := L) hr
  obtain ⟨_, _, c3, _⟩ := checkResize_ok.1 h.checked
  obtain ⟨hl, hI'⟩ := hI.le255 hb c3.2.1 c3.1
  have nv := table_nonneg hr' c3.2.1 h.small.2 (fun ha => (h.area ha).2) tv
  have nh := table_nonneg hr' c3.1 h.small.1 (fun ha => (h.area ha).1) th
  have sv := near21 hr c3.2.1 h.small.2 (fun a => (h.area a).2) tv (ht.1 _ tv) hy
  have sh := near21 hr c3.1 h.small.1 (fun a => (h.area a).1) th (ht.2 _ th) hx
  have := separable_range (lo := lo) (hi := min 255 hi) (lo1 := lo) (hi1 := min 255 (hi + changed store.height into.height))
    (lo2 := lo) (hi2 := min 255 (hi + changed store.height into.height + changed store.width into.width))
    (vv := fun i p => fixedLow (qv.bound i).size (fun k => qv.weight i k) p)
    (hv := fun i p => fixedLow (qh.bound i).size (fun k => qh.weight i k) p) Tv Th hy hx (fun y' x' a b => hI' y' a x' b)
    (fun e => by omega)
    (fun hne P hP => by
      have := range_low (nv y) (ht.1 _ tv y hy) sv hl (by omega) hP
      unfold changed
      rw [if_neg hne]
      exact ⟨this.1, le_trans this.2 (by omega)⟩)
    (fun e => by omega)
    (fun hne P hP => by
      have := range_low (nh x) (ht.2 _ th x hx) sh hl (by omega) hP
      rw [show changed store.width into.width = 1 from if_neg hne]
      exact ⟨this.1, le_trans this.2 (by omega)⟩)
  omega

/-- **C213, default strategy.** On x86 with `PreferSpeed` (the conditions of `C54_speed_partial`), support-two averaging
filters, at most 40 taps: if the source samples of a channel lie between `lo` and `hi`, the destination samples lie
between `lo` and `hi` plus 1 for each dimension that changes. The excess is real (`C54_violated`). -/
theorem C213_range_x86_speed {cpu : Cpu} {W N : ℕ} {L : Lib} {r : ResamplingFunction} {store into : Image ℕ}
    (hr : r ∈ averaging2) (h : AcceptedCall W N r store into) (hb : ∀ v ∈ store.buffer, v ≤ 255)
    (hs : cpu.sse41 = true) (ha : N = 4 → cpu.avx2 = true) (hN : N ≠ 3 ∨ store.width = into.width)
    (hw : below8 store.width into.width = true) (hh : below8 store.height into.height = true)
    (ht : BothTables L r store into Taps40) :
    ∃ out, genericResize W N (formatX86 cpu .preferSpeed N) L r store into = some (.ok (), out) ∧
      ∀ c lo hi, c < N → InRange N c lo hi store → ∀ y x, y < into.height → x < into.width →
        (N = 4 → c = 3 → ∀ q, IsTable L r store.width into.width q → (q.bound x).size ≤ 8) →
        ∃ v, sample out.buffer (into.strideOf N) N y x c = some v ∧ lo ≤ v ∧
          v ≤ hi + changed store.height into.height + changed store.width into.width := by
  obtain ⟨_, _, c3, _⟩ := checkResize_ok.1 h.checked
  have h16 : BothTables L r store into NoOverflow16 :=
    ⟨fun q hq => C115_low_precision hr c3.2.1 h.small.2 (fun a => (h.area a).2) hq
      fun i hi => le_trans (ht.1 q hq i hi) (by norm_num),
    fun q hq => C115_low_precision hr c3.1 h.small.1 (fun a => (h.area a).1) hq
      fun i hi => le_trans (ht.2 q hq i hi) (by norm_num)⟩
  obtain ⟨qv, qh, out, tv, th, Tv, Th, o1, _, _, o4⟩ :=
    C54_speed_partial (h.u8X86 (L := L) (averages_of2 (L := L) hr) hb) h16 hs ha hN hw hh
  refine ⟨out, o1, fun c lo hi hc hI y x hy hx h8 => ⟨_, o4 y x c hy hx hc fun a b => h8 a b _ th, ?_⟩⟩
  exact low_range hr h hb ht hI tv th Tv Th hy hx

/-- **C214.** On AArch64 with the 32-bit handlers (the conditions of `C139_neon_values`), support-two averaging filters,
at most 124 taps: if the source samples of a channel lie between `lo` and `hi`, so do the destination samples. -/
theorem C214_range_neon {rdm : Bool} {s : Workload} {W N : ℕ} {L : Lib} {r : ResamplingFunction} {store into : Image ℕ}
    (hr : r ∈ averaging2) (h : AcceptedCall W N r store into) (hb : ∀ v ∈ store.buffer, v ≤ 255) (hs : Full32 rdm s)
    (hN : 3 ≤ N ∨ (N = 1 ∧ store.width = into.width))
    (h3 : store.height = into.height ∨ store.width * N % 16 < 8 ∨
      ∀ q, IsTable L r store.height into.height q → ∀ y, y < into.height → (q.bound y).size ≠ 3)
    (ht : BothTables L r store into Taps124) :
    ∃ out, genericResize W N (formatNeon rdm s N) L r store into = some (.ok (), out) ∧
      ∀ c lo hi, c < N → InRange N c lo hi store → ∀ y x, y < into.height → x < into.width →
        ∃ v, sample out.buffer (into.strideOf N) N y x c = some v ∧ lo ≤ v ∧ v ≤ hi := by
  have hr' := averages_of2 (L := L) hr
  obtain ⟨_, _, c3, _⟩ := checkResize_ok.1 h.checked
  obtain ⟨qv, qh, out, tv, th, Tv, Th, o1, _, _, o4⟩ := C139_neon_values (h.u8X86 (L := L) hr' hb) hs hN h3
  refine ⟨out, o1, fun c lo hi hc hI y x hy hx => ⟨_, o4 y x c hy hx hc, ?_⟩⟩
  obtain ⟨hl, hI'⟩ := hI.le255 hb c3.2.1 c3.1
  have nv := table_nonneg hr' c3.2.1 h.small.2 (fun ha => (h.area ha).2) tv
  have nh := table_nonneg hr' c3.1 h.small.1 (fun ha => (h.area ha).1) th
  have sv := near64 hr c3.2.1 h.small.2 (fun a => (h.area a).2) tv (ht.1 _ tv) hy
  have sh := near64 hr c3.1 h.small.1 (fun a => (h.area a).1) th (ht.2 _ th) hx
  have := separable_range (lo := lo) (hi := min 255 hi) (lo1 := lo) (hi1 := min 255 hi) (lo2 := lo) (hi2 := min 255 hi)
    (vv := fun i p => fixedRoundDown (qv.bound i).size (fun k => qv.weight i k) p)
    (hv := fun i p => fixedRoundDown (qh.bound i).size (fun k => qh.weight i k) p) Tv Th hy hx (fun y' x' a b => hI' y' a x' b)
    (fun e => by omega)
    (fun hne P hP => range_roundDown (nv y) sv hl (by omega) hP)
    (fun e => by omega)
    (fun hne P hP => range_roundDown (nh x) sh (by omega) (by omega) hP)
  omega

/-- **C214, `rdm`.** On AArch64 with `rdm` and the default strategy (the conditions of `C142_rdm_values`), support-two
averaging filters, at most 40 taps: if the source samples of a channel lie between `lo` and `hi`, the destination samples
lie between `lo` and `hi` plus 1 for each dimension that changes. -/
theorem C214_range_rdm {W N : ℕ} {L : Lib} {r : ResamplingFunction} {store into : Image ℕ}
    (hr : r ∈ averaging2) (h : AcceptedCall W N r store into) (hb : ∀ v ∈ store.buffer, v ≤ 255)
    (hbv : below8 store.height into.height = true) (hbh : below8 store.width into.width = true)
    (h4 : store.height = into.height ∨ store.width * N % 32 < 16 ∨
      ∀ q, IsTable L r store.height into.height q → ∀ y, y < into.height → (q.bound y).size ≠ 4)
    (ht : BothTables L r store into Taps40) :
    ∃ out, genericResize W N (formatNeon true .preferSpeed N) L r store into = some (.ok (), out) ∧
      ∀ c lo hi, c < N → InRange N c lo hi store → ∀ y x, y < into.height → x < into.width →
        ∃ v, sample out.buffer (into.strideOf N) N y x c = some v ∧ lo ≤ v ∧
          v ≤ hi + changed store.height into.height + changed store.width into.width := by
  obtain ⟨_, _, c3, _⟩ := checkResize_ok.1 h.checked
  have h16 : BothTables L r store into NoOverflow16 :=
    ⟨fun q hq => C115_low_precision hr c3.2.1 h.small.2 (fun a => (h.area a).2) hq
      fun i hi => le_trans (ht.1 q hq i hi) (by norm_num),
    fun q hq => C115_low_precision hr c3.1 h.small.1 (fun a => (h.area a).1) hq
      fun i hi => le_trans (ht.2 q hq i hi) (by norm_num)⟩
  obtain ⟨qv, qh, out, tv, th, Tv, Th, o1, _, _, o4⟩ :=
    C142_rdm_values (h.u8X86 (L := L) (averages_of2 (L := L) hr) hb) h16 hbv hbh h4
  exact ⟨out, o1, fun c lo hi hc hI y x hy hx => ⟨_, o4 y x c hy hx hc, low_range hr h hb ht hI tv th Tv Th hy hx⟩⟩

/-! Concrete cases: a 3 × 4 RGBA picture whose blue channel lies between 60 and 90, resized to 5 × 2. -/

def Demo.blueSrc : Image ℕ :=
  { buffer := (List.range 48).map (fun i => 60 + i * 7 % 31), channels := 4, width := 3, height := 4, stride := 12, bitDepth := 8 }

theorem Demo.blueCall : AcceptedCall (2 ^ 64) 4 .bilinear Demo.blueSrc Demo.xdst := by
  constructor <;> decide +kernel

theorem Demo.blueTaps (n : ℕ) (hn : 8 ≤ n) : BothTables demoLib .bilinear Demo.blueSrc Demo.xdst
    (fun q out => ∀ i, i < out → (q.bound i).size ≤ n) := by
  constructor
  · rintro q ⟨fw, e, rfl⟩
    have : (tableOf demoLib .bilinear Demo.blueSrc.height Demo.xdst.height).map (fun t => (List.range 2).all fun x =>
        decide (((numericalApproximation F32.rnd t).bound x).size ≤ 8)) = some true := by decide +kernel
    rw [e] at this
    intro i hi
    simp only [Option.map_some, Option.some.injEq, List.all_eq_true, List.mem_range, decide_eq_true_eq] at this
    exact le_trans (this i hi) hn
  · rintro q ⟨fw, e, rfl⟩
    have : (tableOf demoLib .bilinear Demo.blueSrc.width Demo.xdst.width).map (fun t => (List.range 5).all fun x =>
        decide (((numericalApproximation F32.rnd t).bound x).size ≤ 8)) = some true := by decide +kernel
    rw [e] at this
    intro i hi
    simp only [Option.map_some, Option.some.injEq, List.all_eq_true, List.mem_range, decide_eq_true_eq] at this
    exact le_trans (this i hi) hn

theorem Demo.blueBytes : ∀ v ∈ Demo.blueSrc.buffer, v ≤ 255 := by decide +kernel

instance (N c lo hi : ℕ) (img : Image ℕ) : Decidable (InRange N c lo hi img) := by unfold InRange; infer_instance

theorem Demo.blueRange : InRange 4 2 60 90 Demo.blueSrc := by decide +kernel

example : ∃ out v, genericResize (2 ^ 64) 4 (formatU8 4) demoLib .bilinear Demo.blueSrc Demo.xdst = some (.ok (), out) ∧
    sample out.buffer 21 4 1 3 2 = some v ∧ 59 ≤ v ∧ v ≤ 90 := by
  obtain ⟨out, o1, o2⟩ := C212_range_portable (by decide) Demo.blueCall Demo.blueBytes (Demo.blueTaps 124 (by norm_num))
  obtain ⟨v, v1, v2, v3⟩ := o2 2 60 90 (by decide) Demo.blueRange 1 3 (by decide) (by decide)
  exact ⟨out, v, o1, v1, v2, v3⟩

example : ∃ out v, genericResize (2 ^ 64) 4 (formatX86 ⟨true, true⟩ .preferQuality 4) demoLib .bilinear Demo.blueSrc Demo.xdst =
    some (.ok (), out) ∧ sample out.buffer 21 4 1 3 2 = some v ∧ 60 ≤ v ∧ v ≤ 90 := by
  obtain ⟨out, o1, o2⟩ := C213_range_x86_quality (cpu := ⟨true, true⟩) (by decide) Demo.blueCall Demo.blueBytes
    (Or.inl ⟨rfl, Or.inl (by decide)⟩) (Demo.blueTaps 124 (by norm_num))
  obtain ⟨v, v1, v2, v3⟩ := o2 2 60 90 (by decide) Demo.blueRange 1 3 (by decide) (by decide)
  exact ⟨out, v, o1, v1, v2, v3⟩

example : ∃ out v, genericResize (2 ^ 64) 4 (formatX86 ⟨true, true⟩ .preferSpeed 4) demoLib .bilinear Demo.blueSrc Demo.xdst =
    some (.ok (), out) ∧ sample out.buffer 21 4 1 3 2 = some v ∧ 60 ≤ v ∧ v ≤ 92 := by
  obtain ⟨out, o1, o2⟩ := C213_range_x86_speed (cpu := ⟨true, true⟩) (by decide) Demo.blueCall Demo.blueBytes rfl (fun _ => rfl)
    (Or.inl (by decide)) (by decide +kernel) (by decide +kernel) (Demo.blueTaps 40 (by norm_num))
  obtain ⟨v, v1, v2, v3⟩ := o2 2 60 90 (by decide) Demo.blueRange 1 3 (by decide) (by decide) (by intro _ h; exact absurd h (by decide))
  exact ⟨out, v, o1, v1, v2, v3⟩

/-- An RGB picture for the 32-bit NEON handlers (rows of 18 bytes). -/
def Demo.blueRgb : Image ℕ :=
  { buffer := (List.range 54).map (fun i => 60 + i * 7 % 31), channels := 3, width := 6, height := 3, stride := 18, bitDepth := 8 }

example : ∃ out v, genericResize (2 ^ 64) 3 (formatNeon false .preferSpeed 3) demoLib .bilinear Demo.blueRgb Demo.ndst =
    some (.ok (), out) ∧ sample out.buffer 13 3 0 3 2 = some v ∧ 60 ≤ v ∧ v ≤ 90 := by
  have ht : BothTables demoLib .bilinear Demo.blueRgb Demo.ndst Taps124 := by
    constructor
    · rintro q ⟨fw, e, rfl⟩
      have : (tableOf demoLib .bilinear Demo.blueRgb.height Demo.ndst.height).map (fun t => (List.range 1).all fun x =>
          decide (((numericalApproximation F32.rnd t).bound x).size ≤ 124)) = some true := by decide +kernel
      rw [e] at this
      intro i hi
      simp only [Option.map_some, Option.some.injEq, List.all_eq_true, List.mem_range, decide_eq_true_eq] at this
      exact this i hi
    · rintro q ⟨fw, e, rfl⟩
      have : (tableOf demoLib .bilinear Demo.blueRgb.width Demo.ndst.width).map (fun t => (List.range 4).all fun x =>
          decide (((numericalApproximation F32.rnd t).bound x).size ≤ 124)) = some true := by decide +kernel
      rw [e] at this
      intro i hi
      simp only [Option.map_some, Option.some.injEq, List.all_eq_true, List.mem_range, decide_eq_true_eq] at this
      exact this i hi
  obtain ⟨out, o1, o2⟩ := C214_range_neon (rdm := false) (s := .preferSpeed) (W := 2 ^ 64) (N := 3) (by decide)
    (by constructor <;> decide +kernel) (by decide +kernel) (Or.inr rfl) (Or.inl (by decide)) (Or.inr (Or.inl (by decide))) ht
  obtain ⟨v, v1, v2, v3⟩ := o2 2 60 90 (by decide) (by decide +kernel) 0 3 (by decide) (by decide)
  exact ⟨out, v, o1, v1, v2, v3⟩

example : ∃ out v, genericResize (2 ^ 64) 4 (formatNeon true .preferSpeed 4) demoLib .bilinear Demo.blueSrc Demo.xdst =
    some (.ok (), out) ∧ sample out.buffer 21 4 1 3 2 = some v ∧ 60 ≤ v ∧ v ≤ 92 := by
  obtain ⟨out, o1, o2⟩ := C214_range_rdm (by decide) Demo.blueCall Demo.blueBytes (by decide +kernel) (by decide +kernel)
    (Or.inr (Or.inl (by decide))) (Demo.blueTaps 40 (by norm_num))
  obtain ⟨v, v1, v2, v3⟩ := o2 2 60 90 (by decide) Demo.blueRange 1 3 (by decide) (by decide)
  exact ⟨out, v, o1, v1, v2, v3⟩

end PicScale
