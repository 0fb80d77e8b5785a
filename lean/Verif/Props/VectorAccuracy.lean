import Verif.SpecExact
import Verif.Props.Accuracy
import Verif.Props.VectorRange

/-!
Property theorems C215 – C220: a whole 8-bit resize stays within a stated distance of the ideal one on every target, and
the targets and strategies stay within a stated distance of each other.
-/

namespace PicScale

open Finset F32 Spec

/-! ### The two passes -/

theorem exactSum_cast (n : ℕ) (w : ℕ → ℚ) (p : ℕ → ℕ) : exactSum n w p = ∑ k ∈ range n, w k * ((fun k => (p k : ℚ)) k) := rfl

theorem separable_err {sw sh dw dh y x : ℕ} {vs hs vn hn : ℕ → ℕ} {vv hv : ℕ → (ℕ → ℕ) → ℕ} {vw hw : ℕ → ℕ → ℚ}
    {p : ℕ → ℕ → ℕ} {ev eh : ℚ} (hp : ∀ y x, p y x ≤ 255) (hb : ∀ P, vv y P ≤ 255)
    (h1 : sh ≠ dh → ∀ P : ℕ → ℕ, (∀ k, P k ≤ 255) → |((vv y P : ℕ) : ℚ) - clampQ 255 (exactSum (vn y) (vw y) P)| ≤ ev)
    (h2 : sw ≠ dw → ∀ P : ℕ → ℕ, (∀ k, P k ≤ 255) → |((hv x P : ℕ) : ℚ) - clampQ 255 (exactSum (hn x) (hw x) P)| ≤ eh) :
    |((separable sw sh dw dh vs vv hs hv p y x : ℕ) : ℚ) -
      idealResize sw sh dw dh vs vn vw hs hn hw (fun y x => (p y x : ℚ)) y x| ≤
      twoPassErr sw sh dw dh ev eh (∑ k ∈ range (hn x), |hw x k|) := by
  set ec : ℚ := if sh = dh then 0 else ev with hec
  have hcol : ∀ x', |(((if sh = dh then p y x' else vv y (fun k => p (vs y + k) x') : ℕ)) : ℚ) -
      (if sh = dh then (p y x' : ℚ) else idealPass (vn y) (vw y) (fun k => (p (vs y + k) x' : ℚ)))| ≤ ec := by
    intro x'
    by_cases hd : sh = dh
    · simp [hec, hd]
    · simp only [hec, hd, if_false]
      exact h1 hd _ fun k => hp _ _
  have hcb : ∀ x', (if sh = dh then p y x' else vv y (fun k => p (vs y + k) x')) ≤ 255 := by
    intro x'
    split_ifs
    · exact hp _ _
    · exact hb _
  unfold idealResize separable twoPassErr
  dsimp only
  by_cases hd : sw = dw
  · simp only [hd, if_true]
    have := hcol x
    rw [← hec]
    linarith
  · simp only [hd, if_false]
    rw [← hec]
    have e2 := h2 hd (fun k => if sh = dh then p y (hs x + k) else vv y (fun j => p (vs y + j) (hs x + k))) fun k => hcb _
    have e3 : |clampQ 255 (exactSum (hn x) (hw x) (fun k => if sh = dh then p y (hs x + k) else
        vv y (fun j => p (vs y + j) (hs x + k)))) -
        idealPass (hn x) (hw x) (fun k => if sh = dh then (p y (hs x + k) : ℚ) else
          idealPass (vn y) (vw y) (fun j => (p (vs y + j) (hs x + k) : ℚ)))| ≤ ec * ∑ k ∈ range (hn x), |hw x k| := by
      unfold idealPass
      apply clampQ_err
      unfold exactSum
      rw [← sum_sub_distrib, mul_sum]
      refine le_trans (abs_sum_le_sum_abs _ _) (sum_le_sum fun k _ => ?_)
      rw [← mul_sub, abs_mul, mul_comm]
      exact mul_le_mul_of_nonneg_right (hcol (hs x + k)) (abs_nonneg _)
    have := abs_sub_le (((hv x (fun k => if sh = dh then p y (hs x + k) else vv y (fun j => p (vs y + j) (hs x + k))) : ℕ)) : ℚ)
      (clampQ 255 (exactSum (hn x) (hw x) (fun k => if sh = dh then p y (hs x + k) else vv y (fun j => p (vs y + j) (hs x + k)))))
      (idealPass (hn x) (hw x) (fun k => if sh = dh then (p y (hs x + k) : ℚ) else
          idealPass (vn y) (vw y) (fun j => (p (vs y + j) (hs x + k) : ℚ))))
    linarith

/-- Both tables have weights in `[-1, 1]`. -/
def UnitWeights (L : Lib) (r : ResamplingFunction) (store into : Image ℕ) : Prop :=
  (∀ fw, tableOf L r store.height into.height = some fw → ∀ i k, -1 ≤ fw.weight i k ∧ fw.weight i k ≤ 1) ∧
    (∀ fw, tableOf L r store.width into.width = some fw → ∀ i k, -1 ≤ fw.weight i k ∧ fw.weight i k ≤ 1)

/-- The ideal value of a sample. -/
def idealSample (N : ℕ) (vf hf : FilterWeights ℚ) (store into : Image ℕ) (y x c : ℕ) : ℚ :=
  idealResize store.width store.height into.width into.height (fun i => (vf.bound i).start) (fun i => (vf.bound i).size)
    (fun i k => vf.weight i k) (fun i => (hf.bound i).start) (fun i => (hf.bound i).size) (fun i k => hf.weight i k)
    (fun y x => ((pxD 0 store.buffer (store.strideOf N) N y x c : ℕ) : ℚ)) y x

/-- The error allowed at a sample when passes over `n` taps have errors `ev`, `eh`. -/
def allowedErr (hf : FilterWeights ℚ) (store into : Image ℕ) (x : ℕ) (ev eh : ℚ) : ℚ :=
  twoPassErr store.width store.height into.width into.height ev eh (∑ k ∈ range (hf.bound x).size, |hf.weight x k|)

theorem fixedRoundDown_err {n : ℕ} {q : ℕ → ℤ} {p : ℕ → ℕ} {S e : ℚ}
    (h : |((wsum n q (fun k => (p k : ℤ)) : ℤ) : ℚ) / 32768 - S| ≤ e) :
    |((fixedRoundDown n q p : ℕ) : ℚ) - clampQ 255 S| ≤ 1 / 2 + e := by
  unfold fixedRoundDown
  rw [clamp_cast]
  apply clampQ_err
  unfold fixRoundDown
  set a := ((wsum n q (fun k => (p k : ℤ)) : ℤ) : ℚ) / 32768
  have h1 := Int.le_ceil (a - 1 / 2)
  have h2 := Int.ceil_lt_add_one (a - 1 / 2)
  rw [abs_le] at h ⊢
  constructor <;> linarith

theorem fixedLow_err {n : ℕ} {q : ℕ → ℤ} {w : ℕ → ℚ} {p : ℕ → ℕ} (hq : ∀ k, k < n → |(q k : ℚ) - w k * 32768| ≤ 1)
    (hp : ∀ k, k < n → p k ≤ 255) :
    |((fixedLow n q p : ℕ) : ℚ) - clampQ 255 (exactSum n w p)| ≤ errLow n (∑ k ∈ range n, |w k|) := by
  have h1 := C54_error (w := q) hp
  have h2 := fixed_sum_err (M := 255) hq hp
  have e : exactSum n (fun k => (q k : ℚ) / 32768) p = ((wsum n q (fun k => (p k : ℤ)) : ℤ) : ℚ) / 32768 := by
    unfold exactSum wsum
    push_cast
    rw [sum_div]
    exact sum_congr rfl fun k _ => by ring
  rw [← e] at h2
  have h3 := clampQ_err 255 h2
  have h4 : ∑ k ∈ range n, |(q k : ℚ)| / 32768 ≤ (∑ k ∈ range n, |w k|) + n / 32768 := by
    have : ∀ k ∈ range n, |(q k : ℚ)| / 32768 ≤ |w k| + 1 / 32768 := by
      intro k hk
      rw [div_le_iff₀ (by norm_num)]
      have h5 := hq k (by simpa using hk)
      have h6 := abs_sub_abs_le_abs_sub (q k : ℚ) (w k * 32768)
      rw [abs_mul, show |(32768 : ℚ)| = 32768 by norm_num] at h6
      linarith
    refine le_trans (sum_le_sum this) ?_
    rw [sum_add_distrib, sum_const, card_range, nsmul_eq_mul]
    linarith
  have h5 := abs_sub_le ((fixedLow n q p : ℕ) : ℚ) (clampQ 255 (exactSum n (fun k => (q k : ℚ) / 32768) p))
    (clampQ 255 (exactSum n w p))
  unfold errLow
  push_cast at h3
  linarith

/-- The quantised tables and their distance from the binary32 tables. -/
theorem tables_err {W N : ℕ} {L : Lib} {r : ResamplingFunction} {store into : Image ℕ} {qv qh : FilterWeights ℤ}
    (h : AcceptedCall W N r store into) (hu : UnitWeights L r store into)
    (tv : IsTable L r store.height into.height qv) (th : IsTable L r store.width into.width qh) :
    ∃ vf hf, tableOf L r store.height into.height = some vf ∧ tableOf L r store.width into.width = some hf ∧
      (∀ i, qv.bound i = vf.bound i) ∧ (∀ i, qh.bound i = hf.bound i) ∧
      (∀ i k, |(qv.weight i k : ℚ) - vf.weight i k * 32768| ≤ 1) ∧
      (∀ i k, |(qh.weight i k : ℚ) - hf.weight i k * 32768| ≤ 1) := by
  obtain ⟨_, _, c3, _⟩ := checkResize_ok.1 h.checked
  obtain ⟨vf, ev, rfl⟩ := tv
  obtain ⟨hf, eh, rfl⟩ := th
  obtain ⟨_, _, q1⟩ := table_quantise_err c3.2.1 h.small.2 (fun a => (h.area a).2) ev
  obtain ⟨_, _, q2⟩ := table_quantise_err c3.1 h.small.1 (fun a => (h.area a).1) eh
  exact ⟨vf, hf, ev, eh, fun _ => rfl, fun _ => rfl, fun i k => q1 i k (hu.1 vf ev i k).1 (hu.1 vf ev i k).2,
    fun i k => q2 i k (hu.2 hf eh i k).1 (hu.2 hf eh i k).2⟩

/-- **C215.** The portable code: every sample of a resized 8-bit image is within `allowedErr` of the ideal resize with the
kernel weights, where a horizontal pass over `n` taps contributes `1/2 + n·255/2^15` and a vertical one
`1 + n·255/2^15`. All filters (with the weights of the tables in `[-1, 1]`). -/
theorem C215_accuracy_portable {W N : ℕ} {L : Lib} {r : ResamplingFunction} {store into : Image ℕ}
    (h : Accepted W N L r store into) (hc : AcceptedCall W N r store into) (hu : UnitWeights L r store into) :
    ∃ vf hf out, tableOf L r store.height into.height = some vf ∧ tableOf L r store.width into.width = some hf ∧
      genericResize W N (formatU8 N) L r store into = some (.ok (), out) ∧
      ∀ y x c, y < into.height → x < into.width → c < N →
        ∃ v : ℕ, sample out.buffer (into.strideOf N) N y x c = some v ∧
          |(v : ℚ) - idealSample N vf hf store into y x c| ≤
            allowedErr hf store into x (errFloor (vf.bound y).size) (errRound (hf.bound x).size) := by
  obtain ⟨qv, qh, out, tv, th, _, _, o1, _, _, o4⟩ := C21_separable h
  obtain ⟨vf, hf, ev, eh, bv, bh, wv, wh⟩ := tables_err hc hu tv th
  refine ⟨vf, hf, out, ev, eh, o1, fun y x c hy hx hcc => ?_⟩
  have e := o4 y x c hy hx hcc
  simp only [bv, bh] at e
  refine ⟨_, e, ?_⟩
  unfold idealSample allowedErr
  refine separable_err (vs := fun i => (vf.bound i).start) (hs := fun i => (hf.bound i).start)
    (vv := fun i p => fixedFloor 255 (vf.bound i).size (fun k => qv.weight i k) p)
    (hv := fun i p => fixedRound 255 (hf.bound i).size (fun k => qh.weight i k) p)
    (p := fun y x => pxD 0 store.buffer (store.strideOf N) N y x c) (vn := fun i => (vf.bound i).size) (hn := fun i => (hf.bound i).size)
    (vw := fun i k => vf.weight i k) (hw := fun i k => hf.weight i k) (pxD_byte h.bytes N c)
    (fun _ => clamp_le _ _) ?_ ?_
  · intro _ P hP
    have := fixedFloor_err (hi := 255) (fixed_sum_err (n := (vf.bound y).size) (M := 255) (fun k _ => wv y k) (fun k _ => hP k))
    unfold errFloor
    rw [abs_le]
    push_cast at this
    constructor <;> linarith [this.1, this.2]
  · intro _ P hP
    exact fixedRound_err (hi := 255) (fixed_sum_err (M := 255) (fun k _ => wh x k) (fun k _ => hP k))

/-- **C216.** On x86 with `PreferQuality` (the CPUs and channel counts of `C53_quality_partial`): every sample of a resized
8-bit image is within `allowedErr` of the ideal resize, each pass over `n` taps contributing `1/2 + n·255/2^15`. -/
theorem C216_accuracy_x86_quality {cpu : Cpu} {W N : ℕ} {L : Lib} {r : ResamplingFunction} {store into : Image ℕ}
    (h : AcceptedX86 W N L r store into) (hu : UnitWeights L r store into)
    (hc : (cpu.avx2 = true ∧ (N ≠ 3 ∨ store.width = into.width)) ∨
      (cpu.avx2 = false ∧ cpu.sse41 = true ∧ (store.width * N ≤ 32 ∨ store.height = into.height))) :
    ∃ vf hf out, tableOf L r store.height into.height = some vf ∧ tableOf L r store.width into.width = some hf ∧
      genericResize W N (formatX86 cpu .preferQuality N) L r store into = some (.ok (), out) ∧
      ∀ y x c, y < into.height → x < into.width → c < N →
        ∃ v : ℕ, sample out.buffer (into.strideOf N) N y x c = some v ∧
          |(v : ℚ) - idealSample N vf hf store into y x c| ≤
            allowedErr hf store into x (errRound (vf.bound y).size) (errRound (hf.bound x).size) := by
  obtain ⟨qv, qh, out, tv, th, _, _, o1, _, _, o4⟩ := C53_quality_partial h hc
  obtain ⟨vf, hf, ev, eh, bv, bh, wv, wh⟩ := tables_err h.call hu tv th
  refine ⟨vf, hf, out, ev, eh, o1, fun y x c hy hx hcc => ?_⟩
  have e := o4 y x c hy hx hcc
  simp only [bv, bh] at e
  refine ⟨_, e, ?_⟩
  unfold idealSample allowedErr
  refine separable_err (vs := fun i => (vf.bound i).start) (hs := fun i => (hf.bound i).start)
    (vv := fun i p => fixedRound 255 (vf.bound i).size (fun k => qv.weight i k) p)
    (hv := fun i p => fixedRound 255 (hf.bound i).size (fun k => qh.weight i k) p)
    (p := fun y x => pxD 0 store.buffer (store.strideOf N) N y x c) (vn := fun i => (vf.bound i).size) (hn := fun i => (hf.bound i).size)
    (vw := fun i k => vf.weight i k) (hw := fun i k => hf.weight i k) (pxD_byte h.bytes N c)
    (fun _ => clamp_le _ _) ?_ ?_
  · intro _ P hP
    exact fixedRound_err (hi := 255) (fixed_sum_err (M := 255) (fun k _ => wv y k) (fun k _ => hP k))
  · intro _ P hP
    exact fixedRound_err (hi := 255) (fixed_sum_err (M := 255) (fun k _ => wh x k) (fun k _ => hP k))

/-- **C216, default strategy.** On x86 with `PreferSpeed` (the conditions of `C54_speed_partial`), each pass over `n` taps
with absolute weights adding up to `A` contributes `1/2 + n/128 + n·255/2^15 + 63/64·(A + n/2^15)`. -/
theorem C216_accuracy_x86_speed {cpu : Cpu} {W N : ℕ} {L : Lib} {r : ResamplingFunction} {store into : Image ℕ}
    (h : AcceptedX86 W N L r store into) (hu : UnitWeights L r store into) (h16 : BothTables L r store into NoOverflow16)
    (hs : cpu.sse41 = true) (ha : N = 4 → cpu.avx2 = true) (hN : N ≠ 3 ∨ store.width = into.width)
    (hw : below8 store.width into.width = true) (hh : below8 store.height into.height = true) :
    ∃ vf hf out, tableOf L r store.height into.height = some vf ∧ tableOf L r store.width into.width = some hf ∧
      genericResize W N (formatX86 cpu .preferSpeed N) L r store into = some (.ok (), out) ∧
      ∀ y x c, y < into.height → x < into.width → c < N → (N = 4 → c = 3 → (hf.bound x).size ≤ 8) →
        ∃ v : ℕ, sample out.buffer (into.strideOf N) N y x c = some v ∧
          |(v : ℚ) - idealSample N vf hf store into y x c| ≤
            allowedErr hf store into x (errLow (vf.bound y).size (∑ k ∈ range (vf.bound y).size, |vf.weight y k|))
              (errLow (hf.bound x).size (∑ k ∈ range (hf.bound x).size, |hf.weight x k|)) := by
  obtain ⟨qv, qh, out, tv, th, _, _, o1, _, _, o4⟩ := C54_speed_partial h h16 hs ha hN hw hh
  obtain ⟨vf, hf, ev, eh, bv, bh, wv, wh⟩ := tables_err h.call hu tv th
  refine ⟨vf, hf, out, ev, eh, o1, fun y x c hy hx hcc h8 => ?_⟩
  have e := o4 y x c hy hx hcc (by rw [bh]; exact h8)
  simp only [bv, bh] at e
  refine ⟨_, e, ?_⟩
  unfold idealSample allowedErr
  exact separable_err (vs := fun i => (vf.bound i).start) (hs := fun i => (hf.bound i).start)
    (vv := fun i p => fixedLow (vf.bound i).size (fun k => qv.weight i k) p)
    (hv := fun i p => fixedLow (hf.bound i).size (fun k => qh.weight i k) p)
    (p := fun y x => pxD 0 store.buffer (store.strideOf N) N y x c) (vn := fun i => (vf.bound i).size) (hn := fun i => (hf.bound i).size)
    (vw := fun i k => vf.weight i k) (hw := fun i k => hf.weight i k) (pxD_byte h.bytes N c)
    (fun _ => clamp_le _ _) (fun _ P hP => fixedLow_err (fun k _ => wv y k) (fun k _ => hP k))
    (fun _ P hP => fixedLow_err (fun k _ => wh x k) (fun k _ => hP k))

/-- **C217.** On AArch64 with the 32-bit handlers (the conditions of `C139_neon_values`): every sample of a resized 8-bit
image is within `allowedErr` of the ideal resize, each pass over `n` taps contributing `1/2 + n·255/2^15`. -/
theorem C217_accuracy_neon {rdm : Bool} {s : Workload} {W N : ℕ} {L : Lib} {r : ResamplingFunction} {store into : Image ℕ}
    (h : AcceptedX86 W N L r store into) (hu : UnitWeights L r store into) (hs : Full32 rdm s)
    (hN : 3 ≤ N ∨ (N = 1 ∧ store.width = into.width))
    (h3 : store.height = into.height ∨ store.width * N % 16 < 8 ∨
      ∀ q, IsTable L r store.height into.height q → ∀ y, y < into.height → (q.bound y).size ≠ 3) :
    ∃ vf hf out, tableOf L r store.height into.height = some vf ∧ tableOf L r store.width into.width = some hf ∧
      genericResize W N (formatNeon rdm s N) L r store into = some (.ok (), out) ∧
      ∀ y x c, y < into.height → x < into.width → c < N →
        ∃ v : ℕ, sample out.buffer (into.strideOf N) N y x c = some v ∧
          |(v : ℚ) - idealSample N vf hf store into y x c| ≤
            allowedErr hf store into x (errRound (vf.bound y).size) (errRound (hf.bound x).size) := by
  obtain ⟨qv, qh, out, tv, th, _, _, o1, _, _, o4⟩ := C139_neon_values h hs hN h3
  obtain ⟨vf, hf, ev, eh, bv, bh, wv, wh⟩ := tables_err h.call hu tv th
  refine ⟨vf, hf, out, ev, eh, o1, fun y x c hy hx hcc => ?_⟩
  have e := o4 y x c hy hx hcc
  simp only [bv, bh] at e
  refine ⟨_, e, ?_⟩
  unfold idealSample allowedErr
  refine separable_err (vs := fun i => (vf.bound i).start) (hs := fun i => (hf.bound i).start)
    (vv := fun i p => fixedRoundDown (vf.bound i).size (fun k => qv.weight i k) p)
    (hv := fun i p => fixedRoundDown (hf.bound i).size (fun k => qh.weight i k) p)
    (p := fun y x => pxD 0 store.buffer (store.strideOf N) N y x c) (vn := fun i => (vf.bound i).size) (hn := fun i => (hf.bound i).size)
    (vw := fun i k => vf.weight i k) (hw := fun i k => hf.weight i k) (pxD_byte h.bytes N c)
    (fun _ => clamp_le _ _) ?_ ?_
  · intro _ P hP
    exact fixedRoundDown_err (fixed_sum_err (M := 255) (fun k _ => wv y k) (fun k _ => hP k))
  · intro _ P hP
    exact fixedRoundDown_err (fixed_sum_err (M := 255) (fun k _ => wh x k) (fun k _ => hP k))

/-- **C217, `rdm`.** On AArch64 with `rdm` and the default strategy (the conditions of `C142_rdm_values`), with the pass
errors of the x86 default strategy. -/
theorem C217_accuracy_rdm {W N : ℕ} {L : Lib} {r : ResamplingFunction} {store into : Image ℕ}
    (h : AcceptedX86 W N L r store into) (hu : UnitWeights L r store into) (h16 : BothTables L r store into NoOverflow16)
    (hbv : below8 store.height into.height = true) (hbh : below8 store.width into.width = true)
    (h4 : store.height = into.height ∨ store.width * N % 32 < 16 ∨
      ∀ q, IsTable L r store.height into.height q → ∀ y, y < into.height → (q.bound y).size ≠ 4) :
    ∃ vf hf out, tableOf L r store.height into.height = some vf ∧ tableOf L r store.width into.width = some hf ∧
      genericResize W N (formatNeon true .preferSpeed N) L r store into = some (.ok (), out) ∧
      ∀ y x c, y < into.height → x < into.width → c < N →
        ∃ v : ℕ, sample out.buffer (into.strideOf N) N y x c = some v ∧
          |(v : ℚ) - idealSample N vf hf store into y x c| ≤
            allowedErr hf store into x (errLow (vf.bound y).size (∑ k ∈ range (vf.bound y).size, |vf.weight y k|))
              (errLow (hf.bound x).size (∑ k ∈ range (hf.bound x).size, |hf.weight x k|)) := by
  obtain ⟨qv, qh, out, tv, th, _, _, o1, _, _, o4⟩ := C142_rdm_values h h16 hbv hbh h4
  obtain ⟨vf, hf, ev, eh, bv, bh, wv, wh⟩ := tables_err h.call hu tv th
  refine ⟨vf, hf, out, ev, eh, o1, fun y x c hy hx hcc => ?_⟩
  have e := o4 y x c hy hx hcc
  simp only [bv, bh] at e
  refine ⟨_, e, ?_⟩
  unfold idealSample allowedErr
  exact separable_err (vs := fun i => (vf.bound i).start) (hs := fun i => (hf.bound i).start)
    (vv := fun i p => fixedLow (vf.bound i).size (fun k => qv.weight i k) p)
    (hv := fun i p => fixedLow (hf.bound i).size (fun k => qh.weight i k) p)
    (p := fun y x => pxD 0 store.buffer (store.strideOf N) N y x c) (vn := fun i => (vf.bound i).size) (hn := fun i => (hf.bound i).size)
    (vw := fun i k => vf.weight i k) (hw := fun i k => hf.weight i k) (pxD_byte h.bytes N c)
    (fun _ => clamp_le _ _) (fun _ P hP => fixedLow_err (fun k _ => wv y k) (fun k _ => hP k))
    (fun _ P hP => fixedLow_err (fun k _ => wh x k) (fun k _ => hP k))

/-- What the bounds mean: with at most 16 taps and absolute horizontal weights adding up to at most 1.01, exact passes are
within 1.26 (portable: 1.77) of the ideal value. -/
theorem C216_small {sw sh dw dh n m : ℕ} {A : ℚ} (hn : n ≤ 16) (hm : m ≤ 16) (hA : A ≤ 101 / 100) :
    twoPassErr sw sh dw dh (errRound n) (errRound m) A ≤ 126 / 100 ∧
      twoPassErr sw sh dw dh (errFloor n) (errRound m) A ≤ 177 / 100 := by
  have h1 : (n : ℚ) ≤ 16 := by exact_mod_cast hn
  have h2 : (m : ℚ) ≤ 16 := by exact_mod_cast hm
  have a1 : errRound n ≤ 1 / 2 + 16 * 255 / 32768 := by unfold errRound; linarith
  have a2 : errRound m ≤ 1 / 2 + 16 * 255 / 32768 := by unfold errRound; linarith
  have a3 : errFloor n ≤ 1 + 16 * 255 / 32768 := by unfold errFloor; linarith
  have p1 : 0 ≤ errRound n := by unfold errRound; positivity
  have p2 : 0 ≤ errRound m := by unfold errRound; positivity
  have p3 : 0 ≤ errFloor n := by unfold errFloor; positivity
  have m1 : errRound n * A ≤ errRound n * (101 / 100) := mul_le_mul_of_nonneg_left hA p1
  have m3 : errFloor n * A ≤ errFloor n * (101 / 100) := mul_le_mul_of_nonneg_left hA p3
  unfold twoPassErr
  constructor
  · split_ifs <;> norm_num <;> linarith
  · split_ifs <;> norm_num <;> linarith

/-! Concrete cases: the RGBA picture of C52 (3 × 4 to 5 × 2) and the RGB picture of C139 (6 × 3 to 4 × 1), Bilinear. -/

theorem unit_of_all {fw : FilterWeights ℚ} (h : ∀ w ∈ fw.weights, -1 ≤ w ∧ w ≤ 1) (i k : ℕ) :
    -1 ≤ fw.weight i k ∧ fw.weight i k ≤ 1 := by
  unfold FilterWeights.weight
  rcases hw : fw.weights[i * fw.alignedSize + k]? with _ | w
  · simp [List.getD_eq_getElem?_getD, hw]
  · simp only [List.getD_eq_getElem?_getD, hw, Option.getD_some]
    exact h w (List.mem_of_getElem? hw)

theorem unitWeights_of {L : Lib} {r : ResamplingFunction} {store into : Image ℕ}
    (h1 : (tableOf L r store.height into.height).map (fun t => t.weights.all fun w => decide (-1 ≤ w ∧ w ≤ 1)) = some true)
    (h2 : (tableOf L r store.width into.width).map (fun t => t.weights.all fun w => decide (-1 ≤ w ∧ w ≤ 1)) = some true) :
    UnitWeights L r store into := by
  constructor
  · intro fw e
    rw [e] at h1
    exact unit_of_all (by simpa using h1)
  · intro fw e
    rw [e] at h2
    exact unit_of_all (by simpa using h2)

theorem Demo.xunit : UnitWeights demoLib .bilinear Demo.xsrc Demo.xdst :=
  unitWeights_of (by decide +kernel) (by decide +kernel)

theorem Demo.nunit : UnitWeights demoLib .bilinear Demo.nsrc Demo.ndst :=
  unitWeights_of (by decide +kernel) (by decide +kernel)

example : ∃ vf hf out, tableOf demoLib .bilinear 4 2 = some vf ∧ tableOf demoLib .bilinear 3 5 = some hf ∧
    genericResize (2 ^ 64) 4 (formatU8 4) demoLib .bilinear Demo.xsrc Demo.xdst = some (.ok (), out) ∧
    ∃ v : ℕ, sample out.buffer 21 4 1 4 2 = some v ∧
      |(v : ℚ) - idealSample 4 vf hf Demo.xsrc Demo.xdst 1 4 2| ≤
        allowedErr hf Demo.xsrc Demo.xdst 4 (errFloor (vf.bound 1).size) (errRound (hf.bound 4).size) := by
  obtain ⟨vf, hf, out, a, b, o, e⟩ := C215_accuracy_portable
    (Demo.xcall.u8 (L := demoLib) (Or.inl (by decide)) Demo.xaccepted.bytes) Demo.xcall Demo.xunit
  exact ⟨vf, hf, out, a, b, o, e 1 4 2 (by decide) (by decide) (by decide)⟩

example : ∃ vf hf out, tableOf demoLib .bilinear 4 2 = some vf ∧ tableOf demoLib .bilinear 3 5 = some hf ∧
    genericResize (2 ^ 64) 4 (formatX86 ⟨true, true⟩ .preferQuality 4) demoLib .bilinear Demo.xsrc Demo.xdst =
      some (.ok (), out) ∧
    ∃ v : ℕ, sample out.buffer 21 4 1 4 2 = some v ∧
      |(v : ℚ) - idealSample 4 vf hf Demo.xsrc Demo.xdst 1 4 2| ≤
        allowedErr hf Demo.xsrc Demo.xdst 4 (errRound (vf.bound 1).size) (errRound (hf.bound 4).size) := by
  obtain ⟨vf, hf, out, a, b, o, e⟩ := C216_accuracy_x86_quality (cpu := ⟨true, true⟩) Demo.xaccepted Demo.xunit
    (Or.inl ⟨rfl, Or.inl (by decide)⟩)
  exact ⟨vf, hf, out, a, b, o, e 1 4 2 (by decide) (by decide) (by decide)⟩

example : ∃ out v, genericResize (2 ^ 64) 4 (formatX86 ⟨true, true⟩ .preferSpeed 4) demoLib .bilinear Demo.xsrc Demo.xdst =
      some (.ok (), out) ∧ sample out.buffer 21 4 1 4 2 = some v := by
  obtain ⟨vf, hf, out, a, b, o, e⟩ := C216_accuracy_x86_speed (cpu := ⟨true, true⟩) Demo.xaccepted Demo.xunit Demo.x16 rfl
    (fun _ => rfl) (Or.inl (by decide)) (by decide +kernel) (by decide +kernel)
  obtain ⟨v, hv, _⟩ := e 1 4 2 (by decide) (by decide) (by decide) (by intro _ h; exact absurd h (by decide))
  exact ⟨out, v, o, hv⟩

example : ∃ out v, genericResize (2 ^ 64) 3 (formatNeon true .preferQuality 3) demoLib .bilinear Demo.nsrc Demo.ndst =
      some (.ok (), out) ∧ sample out.buffer 13 3 0 3 2 = some v := by
  obtain ⟨vf, hf, out, a, b, o, e⟩ := C217_accuracy_neon (rdm := true) (s := .preferQuality) Demo.naccepted Demo.nunit
    (Or.inl rfl) (Or.inl (le_refl _)) (Or.inr (Or.inl (by decide)))
  obtain ⟨v, hv, _⟩ := e 0 3 2 (by decide) (by decide) (by decide)
  exact ⟨out, v, o, hv⟩

example : ∃ out v, genericResize (2 ^ 64) 4 (formatNeon true .preferSpeed 4) demoLib .bilinear Demo.xsrc Demo.xdst =
      some (.ok (), out) ∧ sample out.buffer 21 4 1 4 2 = some v := by
  obtain ⟨vf, hf, out, a, b, o, e⟩ := C217_accuracy_rdm Demo.xaccepted Demo.xunit Demo.x16 (by decide +kernel)
    (by decide +kernel) (Or.inr (Or.inl (by decide)))
  obtain ⟨v, hv, _⟩ := e 1 4 2 (by decide) (by decide) (by decide)
  exact ⟨out, v, o, hv⟩

/-- The ideal value of a concrete sample and the allowed error: halving `10, 21` (weights 1/2, 1/2). -/
example : idealPass 2 (fun _ => 1 / 2) (fun k => 10 + 11 * k) = 31 / 2 ∧ errRound 2 < 52 / 100 := by
  constructor
  · norm_num [idealPass, sum_range_succ, clampQ]
  · norm_num [errRound]

end PicScale
