import Verif.Props.RangeU16

/-!
Property theorem C275: the negative of a picture gives the negative of the result, up to a few levels.
-/

namespace PicScale

open F32 Spec Finset

/-- `store'` is the photographic negative of `store` with white `H`. -/
structure Spec.Negative (N H : ℕ) (store store' : Image ℕ) : Prop where
  width : store.width = store'.width
  height : store.height = store'.height
  samples : ∀ y x c, y < store.height → x < store.width → c < N →
    pxD 0 store.buffer (store.strideOf N) N y x c + pxD 0 store'.buffer (store'.strideOf N) N y x c = H

/-- `a` and `b` add up to white, up to `d`. -/
def Spec.Opposite (H : ℕ) (d : ℚ) (a b : ℕ) : Prop := |(a : ℚ) + b - H| ≤ d

theorem Opposite.mono {H a b : ℕ} {d d' : ℚ} (h : d ≤ d') (k : Opposite H d a b) : Opposite H d' a b := le_trans k h

/-- Clamping does not spoil it. -/
theorem clamp_opposite {H : ℕ} {d : ℚ} {z z' : ℤ} (h : |(z : ℚ) + z' - H| ≤ d) : Opposite H d (clamp H z) (clamp H z') := by
  have key : ∀ z : ℤ, ((clamp H z : ℕ) : ℚ) = max 0 (min (z : ℚ) H) := by
    intro z
    have k : ((clamp H z : ℕ) : ℤ) = max 0 (min z H) := by unfold clamp; omega
    have := congrArg (fun t : ℤ => (t : ℚ)) k
    push_cast at this; exact this
  have hH : (0 : ℚ) ≤ H := by positivity
  unfold Opposite
  rw [key, key, abs_le]
  rw [abs_le] at h
  obtain ⟨h1, h2⟩ := h
  rcases min_cases (z : ℚ) (H : ℚ) with ⟨e1, l1⟩ | ⟨e1, l1⟩ <;> rcases min_cases (z' : ℚ) (H : ℚ) with ⟨e2, l2⟩ | ⟨e2, l2⟩ <;>
    rw [e1, e2]
  · rcases max_cases (0 : ℚ) (z : ℚ) with ⟨e3, l3⟩ | ⟨e3, l3⟩ <;> rcases max_cases (0 : ℚ) (z' : ℚ) with ⟨e4, l4⟩ | ⟨e4, l4⟩ <;>
      rw [e3, e4] <;> constructor <;> linarith
  · rw [max_eq_right hH]
    rcases max_cases (0 : ℚ) (z : ℚ) with ⟨e3, l3⟩ | ⟨e3, l3⟩ <;> rw [e3] <;> constructor <;> linarith
  · rw [max_eq_right hH]
    rcases max_cases (0 : ℚ) (z' : ℚ) with ⟨e4, l4⟩ | ⟨e4, l4⟩ <;> rw [e4] <;> constructor <;> linarith
  · rw [max_eq_right hH]; constructor <;> linarith

/-- The value of a pass is the weighted sum, rounded by at most `g`, and clamped. -/
def RoundedBy (g : ℚ) (hi n : ℕ) (w : ℕ → ℤ) (p : ℕ → ℕ) (v : ℕ) : Prop :=
  ∃ z : ℤ, v = clamp hi z ∧ |(z : ℚ) - ((wsum n w fun k => (p k : ℤ) : ℤ) : ℚ) / 32768| ≤ g

theorem roundedBy_round (hi n : ℕ) (w : ℕ → ℤ) (p : ℕ → ℕ) : RoundedBy (1 / 2) hi n w p (fixedRound hi n w p) := by
  refine ⟨_, rfl, ?_⟩
  unfold fixRound
  have f1 := Int.floor_le (((wsum n w fun k => (p k : ℤ) : ℤ) : ℚ) / 32768 + 1 / 2)
  have f2 := Int.lt_floor_add_one (((wsum n w fun k => (p k : ℤ) : ℤ) : ℚ) / 32768 + 1 / 2)
  rw [abs_le]; constructor <;> linarith

theorem roundedBy_half (hi n : ℕ) (w : ℕ → ℤ) (p : ℕ → ℕ) : RoundedBy (1 / 2) hi n w p (fixedHalfDown hi n w p) := by
  refine ⟨_, rfl, ?_⟩
  unfold fixRoundDown
  have f1 := Int.le_ceil (((wsum n w fun k => (p k : ℤ) : ℤ) : ℚ) / 32768 - 1 / 2)
  have f2 := Int.ceil_lt_add_one (((wsum n w fun k => (p k : ℤ) : ℤ) : ℚ) / 32768 - 1 / 2)
  rw [abs_le]; constructor <;> linarith

theorem roundedBy_floor (hi n : ℕ) (w : ℕ → ℤ) (p : ℕ → ℕ) : RoundedBy 1 hi n w p (fixedFloor hi n w p) := by
  refine ⟨_, rfl, ?_⟩
  unfold fixFloor
  have f1 := Int.floor_le (((wsum n w fun k => (p k : ℤ) : ℤ) : ℚ) / 32768)
  have f2 := Int.lt_floor_add_one (((wsum n w fun k => (p k : ℤ) : ℤ) : ℚ) / 32768)
  rw [abs_le]; constructor <;> linarith

theorem RoundedBy.mono {g g' : ℚ} {hi n : ℕ} {w : ℕ → ℤ} {p : ℕ → ℕ} {v : ℕ} (hg : g ≤ g') (h : RoundedBy g hi n w p v) :
    RoundedBy g' hi n w p v := by
  obtain ⟨z, a, b⟩ := h
  exact ⟨z, a, le_trans b hg⟩

/-- One pass over opposite pictures. -/
theorem opposite_pass {hi n v v' : ℕ} {w : ℕ → ℤ} {p p' : ℕ → ℕ} {e d g : ℚ} (hw : ∀ k, 0 ≤ w k)
    (hs : |((∑ k ∈ range n, w k : ℤ) : ℚ) - 32768| ≤ 32768 * e) (hd : 0 ≤ d)
    (hp : ∀ k, k < n → Opposite hi d (p k) (p' k)) (hv : RoundedBy g hi n w p v) (hv' : RoundedBy g hi n w p' v') :
    Opposite hi (hi * e + d * (1 + e) + 2 * g) v v' := by
  obtain ⟨z, rfl, hz⟩ := hv
  obtain ⟨z', rfl, hz'⟩ := hv'
  refine clamp_opposite ?_
  have e1 : ∀ p : ℕ → ℕ, ((wsum n w fun k => (p k : ℤ) : ℤ) : ℚ) = ∑ k ∈ range n, (w k : ℚ) * p k := by
    intro p; unfold wsum; push_cast; rfl
  have e2 : ((∑ k ∈ range n, w k : ℤ) : ℚ) = ∑ k ∈ range n, (w k : ℚ) := by push_cast; rfl
  rw [e1] at hz hz'
  rw [e2] at hs
  have key : |∑ k ∈ range n, (w k : ℚ) * p k + ∑ k ∈ range n, (w k : ℚ) * p' k - (∑ k ∈ range n, (w k : ℚ)) * hi| ≤
      (∑ k ∈ range n, (w k : ℚ)) * d := by
    rw [← sum_add_distrib, sum_mul, ← sum_sub_distrib, sum_mul]
    refine le_trans (abs_sum_le_sum_abs _ _) (sum_le_sum fun k hk => ?_)
    have hk' : (0 : ℚ) ≤ w k := by exact_mod_cast hw k
    rw [show (w k : ℚ) * p k + w k * p' k - w k * hi = w k * (p k + p' k - hi) by ring, abs_mul, abs_of_nonneg hk']
    exact mul_le_mul_of_nonneg_left (hp k (mem_range.1 hk)) hk'
  generalize ∑ k ∈ range n, (w k : ℚ) * p k = s at *
  generalize ∑ k ∈ range n, (w k : ℚ) * p' k = s' at *
  generalize ∑ k ∈ range n, (w k : ℚ) = t at *
  have hH : (0 : ℚ) ≤ hi := by positivity
  rw [abs_le] at key hs hz hz' ⊢
  have a1 : t * d ≤ 32768 * (1 + e) * d := mul_le_mul_of_nonneg_right (by linarith [hs.2]) hd
  have a2 : t * hi ≤ 32768 * (1 + e) * hi := mul_le_mul_of_nonneg_right (by linarith [hs.2]) hH
  have a3 : 32768 * (1 - e) * hi ≤ t * hi := mul_le_mul_of_nonneg_right (by linarith [hs.1]) hH
  constructor <;> linarith [key.1, key.2, hz.1, hz.2, hz'.1, hz'.2]

/-- The deviation is a whole number. -/
theorem Opposite.whole {H a b k : ℕ} {d : ℚ} (h : Opposite H d a b) (hk : d < k + 1) : Opposite H k a b := by
  unfold Opposite at *
  have h1 : |((a : ℤ) + b - H : ℤ)| < (k : ℤ) + 1 := by
    have : ((|((a : ℤ) + b - H : ℤ)| : ℤ) : ℚ) < ((k + 1 : ℤ) : ℚ) := by
      push_cast
      exact lt_of_le_of_lt h hk
    exact_mod_cast this
  have h2 : |((a : ℤ) + b - H : ℤ)| ≤ (k : ℤ) := by omega
  have : ((|((a : ℤ) + b - H : ℤ)| : ℤ) : ℚ) ≤ ((k : ℤ) : ℚ) := by exact_mod_cast h2
  push_cast at this
  exact this

/-- Two passes with relations after each. -/
theorem sepFun_rel3 {S : Type} {A B C : S → S → Prop} {N sw sh dw dh : ℕ} {vs vn hs hn : ℕ → ℕ}
    {vv : ℕ → ℕ → (ℕ → ℕ → S) → S} {hv : ℕ → ℕ → ℕ → (ℕ → S) → S} {p p' : ℕ → ℕ → S} {y x c : ℕ}
    (Tv : vs y + vn y ≤ sh) (Th : hs x + hn x ≤ sw) (hy : y < dh) (hx : x < dw) (hc : c < N)
    (hP : ∀ j q, j < sh → q < sw * N → A (p j q) (p' j q)) (hAB : ∀ v v', A v v' → B v v') (hBC : ∀ v v', B v v' → C v v')
    (hvv : ∀ q, q < sw * N → (∀ k q', k < vn y → q' < sw * N → A (p (vs y + k) q') (p' (vs y + k) q')) →
      B (vv y q p) (vv y q p'))
    (hhv : ∀ r r' : ℕ → S, (∀ k c', k < hn x → c' < N → B (r ((hs x + k) * N + c')) (r' ((hs x + k) * N + c'))) →
      C (hv y x c r) (hv y x c r')) :
    C (sepFun N sw sh dw dh vv hv p y x c) (sepFun N sw sh dw dh vv hv p' y x c) := by
  have col : ∀ q, q < sw * N → B (if sh = dh then p y q else vv y q p) (if sh = dh then p' y q else vv y q p') := by
    intro q hq
    split_ifs with e
    · exact hAB _ _ (hP y q (by omega) hq)
    · exact hvv _ hq fun k q' hk hq' => hP _ _ (by omega) hq'
  unfold sepFun
  dsimp only
  by_cases e : sw = dw
  · rw [if_pos e, if_pos e]; exact hBC _ _ (col _ (pos_lt (by omega) hc))
  · rw [if_neg e, if_neg e]
    exact hhv _ _ fun k c' hk hc' => col _ (pos_lt (by omega) hc')

/-- The same for passes that read their own column only. -/
theorem separable_rel3 {A B C : ℕ → ℕ → Prop} {sw sh dw dh : ℕ} {vs vn hs hn : ℕ → ℕ} {vv hv : ℕ → (ℕ → ℕ) → ℕ}
    {p p' : ℕ → ℕ → ℕ} {y x : ℕ} (Tv : vs y + vn y ≤ sh) (Th : hs x + hn x ≤ sw) (hy : y < dh) (hx : x < dw)
    (hP : ∀ j q, j < sh → q < sw → A (p j q) (p' j q)) (hAB : ∀ v v', A v v' → B v v') (hBC : ∀ v v', B v v' → C v v')
    (hvv : ∀ a b : ℕ → ℕ, (∀ k, k < vn y → A (a k) (b k)) → B (vv y a) (vv y b))
    (hhv : ∀ a b : ℕ → ℕ, (∀ k, k < hn x → B (a k) (b k)) → C (hv x a) (hv x b)) :
    C (separable sw sh dw dh vs vv hs hv p y x) (separable sw sh dw dh vs vv hs hv p' y x) := by
  have col : ∀ q, q < sw → B (if sh = dh then p y q else vv y fun k => p (vs y + k) q)
      (if sh = dh then p' y q else vv y fun k => p' (vs y + k) q) := by
    intro q hq
    split_ifs with e
    · exact hAB _ _ (hP y q (by omega) hq)
    · exact hvv _ _ fun k hk => hP _ _ (by omega) hq
  unfold separable
  dsimp only
  by_cases e : sw = dw
  · rw [if_pos e, if_pos e]; exact hBC _ _ (col _ (by omega))
  · rw [if_neg e, if_neg e]
    exact hhv _ _ fun k hk => col _ (by omega)

theorem near512 {L : Lib} {r : ResamplingFunction} (hr : r ∈ averaging2) {inn out : ℕ} {q : FilterWeights ℤ}
    (h1 : 1 ≤ inn) (h2 : inn ≤ 2 ^ 23) (ha : r = .area → out ≤ 2 ^ 22) (hq : IsTable L r inn out q)
    (ht : Taps124 q out) {i : ℕ} (hi : i < out) :
    |((∑ k ∈ range (q.bound i).size, q.weight i k : ℤ) : ℚ) - 32768| ≤ 32768 * (1 / 512) := by
  have h := near64 hr h1 h2 ha hq ht hi
  have : ((|(∑ k ∈ range (q.bound i).size, q.weight i k) - 32768| : ℤ) : ℚ) ≤ ((64 : ℤ) : ℚ) := by exact_mod_cast h
  push_cast at this ⊢
  linarith

/-- **C275, 8-bit, portable code.** The negative of a picture resizes to the negative of the result, up to three
levels (averaging filters of support two, windows of at most 124 pixels). -/
theorem C275_negative_u8 {W N : ℕ} {L : Lib} {r : ResamplingFunction} {store store' into out out' : Image ℕ}
    (hr : r ∈ averaging2) (h : AcceptedCall W N r store into) (h' : AcceptedCall W N r store' into)
    (hb : ∀ v ∈ store.buffer, v ≤ 255) (hb' : ∀ v ∈ store'.buffer, v ≤ 255) (ht : BothTables L r store into Taps124)
    (hp : Negative N 255 store store')
    (ho : genericResize W N (formatU8 N) L r store into = some (.ok (), out))
    (ho' : genericResize W N (formatU8 N) L r store' into = some (.ok (), out')) :
    ∀ y x c, y < into.height → x < into.width → c < N →
      Opposite 255 3 (pxD 0 out.buffer (into.strideOf N) N y x c) (pxD 0 out'.buffer (into.strideOf N) N y x c) := by
  have hA : Averages L r := averages_of2 hr
  obtain ⟨_, _, c3, _⟩ := checkResize_ok.1 h.checked
  obtain ⟨qv, qh, o, tv, th, Tv, Th, o1, _, _, o4⟩ := C21_separable (h.u8 hA hb)
  obtain ⟨qv', qh', o', tv', th', _, _, o1', _, _, o4'⟩ := C21_separable (h'.u8 hA hb')
  rw [← hp.height] at tv'
  rw [← hp.width] at th'
  obtain rfl := isTable_unique tv tv'
  obtain rfl := isTable_unique th th'
  rw [ho] at o1
  obtain rfl : out = o := by simpa using o1
  rw [ho'] at o1'
  obtain rfl : out' = o' := by simpa using o1'
  intro y x c hy hx hc
  have nv := table_nonneg hA c3.2.1 h.small.2 (fun ha => (h.area ha).2) tv
  have nh := table_nonneg hA c3.1 h.small.1 (fun ha => (h.area ha).1) th
  have sv := near512 hr c3.2.1 h.small.2 (fun a => (h.area a).2) tv (ht.1 _ tv) hy
  have sh := near512 hr c3.1 h.small.1 (fun a => (h.area a).1) th (ht.2 _ th) hx
  unfold pxD
  rw [o4 y x c hy hx hc, o4' y x c hy hx hc, ← hp.width, ← hp.height, Option.getD_some, Option.getD_some]
  refine separable_rel3 (A := Opposite 255 0) (B := Opposite 255 2) (C := Opposite 255 3)
    (vn := fun i => (qv.bound i).size) (hn := fun i => (qh.bound i).size) (Tv.inside y hy) (Th.inside x hx) hy hx
    (fun j q hj hq => ?_) (fun _ _ => Opposite.mono (by norm_num)) (fun _ _ => Opposite.mono (by norm_num))
    (fun a b hab => ?_) (fun a b hab => ?_)
  · unfold Opposite
    have : ((pxD 0 store.buffer (store.strideOf N) N j q c + pxD 0 store'.buffer (store'.strideOf N) N j q c : ℕ) : ℚ) = (255 : ℕ) := by
      rw [hp.samples j q c hj hq hc]
    push_cast at this ⊢
    rw [this]; norm_num
  · exact Opposite.whole (k := 2) (opposite_pass (nv y) sv le_rfl hab (roundedBy_floor _ _ _ _) (roundedBy_floor _ _ _ _))
      (by norm_num)
  · exact Opposite.whole (k := 3) (opposite_pass (nh x) sh (by norm_num) hab (roundedBy_round _ _ _ _) (roundedBy_round _ _ _ _))
      (by norm_num)

/-- **C275, 8-bit, x86 with `PreferQuality`**: up to two levels. The same CPUs and formats as in C53. -/
theorem C275_negative_x86 {cpu : Cpu} {W N : ℕ} {L : Lib} {r : ResamplingFunction} {store store' into out out' : Image ℕ}
    (hr : r ∈ averaging2) (h : AcceptedCall W N r store into) (h' : AcceptedCall W N r store' into)
    (hb : ∀ v ∈ store.buffer, v ≤ 255) (hb' : ∀ v ∈ store'.buffer, v ≤ 255) (ht : BothTables L r store into Taps124)
    (hc : (cpu.avx2 = true ∧ (N ≠ 3 ∨ store.width = into.width)) ∨
      (cpu.avx2 = false ∧ cpu.sse41 = true ∧ (store.width * N ≤ 32 ∨ store.height = into.height)))
    (hp : Negative N 255 store store')
    (ho : genericResize W N (formatX86 cpu .preferQuality N) L r store into = some (.ok (), out))
    (ho' : genericResize W N (formatX86 cpu .preferQuality N) L r store' into = some (.ok (), out')) :
    ∀ y x c, y < into.height → x < into.width → c < N →
      Opposite 255 2 (pxD 0 out.buffer (into.strideOf N) N y x c) (pxD 0 out'.buffer (into.strideOf N) N y x c) := by
  have hA : Averages L r := averages_of2 hr
  obtain ⟨_, _, c3, _⟩ := checkResize_ok.1 h.checked
  have hc' : (cpu.avx2 = true ∧ (N ≠ 3 ∨ store'.width = into.width)) ∨
      (cpu.avx2 = false ∧ cpu.sse41 = true ∧ (store'.width * N ≤ 32 ∨ store'.height = into.height)) := by
    rw [← hp.width, ← hp.height]; exact hc
  obtain ⟨qv, qh, o, tv, th, Tv, Th, o1, _, _, o4⟩ := C53_quality_partial (h.u8X86 (L := L) hA hb) hc
  obtain ⟨qv', qh', o', tv', th', _, _, o1', _, _, o4'⟩ := C53_quality_partial (h'.u8X86 (L := L) hA hb') hc'
  rw [← hp.height] at tv'
  rw [← hp.width] at th'
  obtain rfl := isTable_unique tv tv'
  obtain rfl := isTable_unique th th'
  rw [ho] at o1
  obtain rfl : out = o := by simpa using o1
  rw [ho'] at o1'
  obtain rfl : out' = o' := by simpa using o1'
  intro y x c hy hx hc
  have nv := table_nonneg hA c3.2.1 h.small.2 (fun ha => (h.area ha).2) tv
  have nh := table_nonneg hA c3.1 h.small.1 (fun ha => (h.area ha).1) th
  have sv := near512 hr c3.2.1 h.small.2 (fun a => (h.area a).2) tv (ht.1 _ tv) hy
  have sh := near512 hr c3.1 h.small.1 (fun a => (h.area a).1) th (ht.2 _ th) hx
  unfold pxD
  rw [o4 y x c hy hx hc, o4' y x c hy hx hc, ← hp.width, ← hp.height, Option.getD_some, Option.getD_some]
  refine separable_rel3 (A := Opposite 255 0) (B := Opposite 255 1) (C := Opposite 255 2)
    (vn := fun i => (qv.bound i).size) (hn := fun i => (qh.bound i).size) (Tv.inside y hy) (Th.inside x hx) hy hx
    (fun j q hj hq => ?_) (fun _ _ => Opposite.mono (by norm_num)) (fun _ _ => Opposite.mono (by norm_num))
    (fun a b hab => ?_) (fun a b hab => ?_)
  · unfold Opposite
    have : ((pxD 0 store.buffer (store.strideOf N) N j q c + pxD 0 store'.buffer (store'.strideOf N) N j q c : ℕ) : ℚ) = (255 : ℕ) := by
      rw [hp.samples j q c hj hq hc]
    push_cast at this ⊢
    rw [this]; norm_num
  · exact Eq.mp (by norm_num) (Opposite.whole (k := 1) (opposite_pass (nv y) sv le_rfl hab (roundedBy_round _ _ _ _) (roundedBy_round _ _ _ _))
      (by norm_num))
  · exact Opposite.whole (k := 2) (opposite_pass (nh x) sh (by norm_num) hab (roundedBy_round _ _ _ _) (roundedBy_round _ _ _ _))
      (by norm_num)

/-- **C275, 8-bit, AArch64**: up to two levels. The same handlers and conditions as in C139. -/
theorem C275_negative_neon {rdm : Bool} {s : Workload} {W N : ℕ} {L : Lib} {r : ResamplingFunction}
    {store store' into out out' : Image ℕ}
    (hr : r ∈ averaging2) (h : AcceptedCall W N r store into) (h' : AcceptedCall W N r store' into)
    (hb : ∀ v ∈ store.buffer, v ≤ 255) (hb' : ∀ v ∈ store'.buffer, v ≤ 255) (ht : BothTables L r store into Taps124)
    (hs : Full32 rdm s) (hN : 3 ≤ N ∨ (N = 1 ∧ store.width = into.width))
    (h3 : store.height = into.height ∨ store.width * N % 16 < 8 ∨
      ∀ q, IsTable L r store.height into.height q → ∀ y, y < into.height → (q.bound y).size ≠ 3)
    (hp : Negative N 255 store store')
    (ho : genericResize W N (formatNeon rdm s N) L r store into = some (.ok (), out))
    (ho' : genericResize W N (formatNeon rdm s N) L r store' into = some (.ok (), out')) :
    ∀ y x c, y < into.height → x < into.width → c < N →
      Opposite 255 2 (pxD 0 out.buffer (into.strideOf N) N y x c) (pxD 0 out'.buffer (into.strideOf N) N y x c) := by
  have hA : Averages L r := averages_of2 hr
  obtain ⟨_, _, c3, _⟩ := checkResize_ok.1 h.checked
  have hN' : 3 ≤ N ∨ (N = 1 ∧ store'.width = into.width) := by rw [← hp.width]; exact hN
  have h3' : store'.height = into.height ∨ store'.width * N % 16 < 8 ∨
      ∀ q, IsTable L r store'.height into.height q → ∀ y, y < into.height → (q.bound y).size ≠ 3 := by
    rw [← hp.width, ← hp.height]; exact h3
  obtain ⟨qv, qh, o, tv, th, Tv, Th, o1, _, _, o4⟩ := C139_neon_values (h.u8X86 (L := L) hA hb) hs hN h3
  obtain ⟨qv', qh', o', tv', th', _, _, o1', _, _, o4'⟩ := C139_neon_values (h'.u8X86 (L := L) hA hb') hs hN' h3'
  rw [← hp.height] at tv'
  rw [← hp.width] at th'
  obtain rfl := isTable_unique tv tv'
  obtain rfl := isTable_unique th th'
  rw [ho] at o1
  obtain rfl : out = o := by simpa using o1
  rw [ho'] at o1'
  obtain rfl : out' = o' := by simpa using o1'
  intro y x c hy hx hc
  have nv := table_nonneg hA c3.2.1 h.small.2 (fun ha => (h.area ha).2) tv
  have nh := table_nonneg hA c3.1 h.small.1 (fun ha => (h.area ha).1) th
  have sv := near512 hr c3.2.1 h.small.2 (fun a => (h.area a).2) tv (ht.1 _ tv) hy
  have sh := near512 hr c3.1 h.small.1 (fun a => (h.area a).1) th (ht.2 _ th) hx
  unfold pxD
  rw [o4 y x c hy hx hc, o4' y x c hy hx hc, ← hp.width, ← hp.height, Option.getD_some, Option.getD_some]
  refine separable_rel3 (A := Opposite 255 0) (B := Opposite 255 ((1 : ℕ) : ℚ)) (C := Opposite 255 2)
    (vn := fun i => (qv.bound i).size) (hn := fun i => (qh.bound i).size) (Tv.inside y hy) (Th.inside x hx) hy hx
    (fun j q hj hq => ?_) (fun _ _ => Opposite.mono (by norm_num)) (fun _ _ => Opposite.mono (by norm_num))
    (fun a b hab => ?_) (fun a b hab => ?_)
  · unfold Opposite
    have : ((pxD 0 store.buffer (store.strideOf N) N j q c + pxD 0 store'.buffer (store'.strideOf N) N j q c : ℕ) : ℚ) = (255 : ℕ) := by
      rw [hp.samples j q c hj hq hc]
    push_cast at this ⊢
    rw [this]; norm_num
  · exact (Opposite.whole (k := 1) (opposite_pass (nv y) sv le_rfl hab (roundedBy_half 255 _ _ _) (roundedBy_half 255 _ _ _))
      (by norm_num))
  · exact Opposite.whole (k := 2) (opposite_pass (nh x) sh (by norm_num) hab (roundedBy_half 255 _ _ _) (roundedBy_half 255 _ _ _))
      (by norm_num)

/-- White minus the deviation allowed after both passes, at most `n` taps. -/
def Spec.negErr (H n : ℕ) : ℚ := H * ((1 + sumErr n) ^ 2 - 1) + 2 * (1 + sumErr n) + 1

theorem negErr_levels {H n : ℕ} (hH : H ≤ 4095) (hn : n ≤ 16) : negErr H n < 6 := by
  have hn' : (n : ℚ) ≤ 16 := by exact_mod_cast hn
  have hH' : (H : ℚ) ≤ 4095 := by exact_mod_cast hH
  have hH0 : (0 : ℚ) ≤ H := by positivity
  have e1 : sumErr n ≤ 3 / 10000 := by
    unfold sumErr
    rw [div_le_iff₀ (by positivity)]
    linarith
  have e0 := sumErr_pos n
  unfold negErr
  generalize sumErr n = e at *
  have d : (1 + e) ^ 2 - 1 ≤ 601 / 1000000 := by nlinarith
  have : (H : ℚ) * ((1 + e) ^ 2 - 1) ≤ 4095 * (601 / 1000000) := mul_le_mul hH' d (by nlinarith) (by norm_num)
  linarith

theorem Spec.Negative.rows {N H : ℕ} {store store' : Image ℕ} (hN : 1 ≤ N) (hp : Negative N H store store') (j q : ℕ)
    (hj : j < store.height) (hq : q < store.width * N) :
    Opposite H 0 (rowPos 0 store.buffer (store.strideOf N) j q) (rowPos 0 store'.buffer (store'.strideOf N) j q) := by
  have e : q = q / N * N + q % N := by rw [Nat.mul_comm]; exact (Nat.div_add_mod q N).symm
  rw [e, rowPos_pxD, rowPos_pxD]
  have := hp.samples j (q / N) (q % N) hj (Nat.div_lt_of_lt_mul (by rwa [Nat.mul_comm])) (Nat.mod_lt q (by omega))
  unfold Opposite
  rw [← this]
  push_cast
  simp

/-- **C275, u16 up to 12 bits, x86.** -/
theorem C275_negative_u16 {W N n : ℕ} {L : Lib} {r : ResamplingFunction} {store store' into out out' : Image ℕ}
    (hr : r ∈ averaging2) (h : AcceptedCall16 W N r store into) (h' : AcceptedCall16 W N r store' into)
    (hd : into.bitDepth ≤ 12) (hb : ∀ v ∈ store.buffer, v ≤ 2 ^ into.bitDepth - 1)
    (hb' : ∀ v ∈ store'.buffer, v ≤ 2 ^ into.bitDepth - 1) (ht : BothTables L r store into (AtMostTaps n)) (cpu : Cpu) (fma fused : Bool)
    (hp : Negative N (2 ^ into.bitDepth - 1) store store')
    (ho : genericResize W N (formatU16X86 cpu fma fused N) L r store into = some (.ok (), out))
    (ho' : genericResize W N (formatU16X86 cpu fma fused N) L r store' into = some (.ok (), out')) :
    ∀ y x c, y < into.height → x < into.width → c < N →
      Opposite (2 ^ into.bitDepth - 1) (negErr (2 ^ into.bitDepth - 1) n) (pxD 0 out.buffer (into.strideOf N) N y x c)
        (pxD 0 out'.buffer (into.strideOf N) N y x c) := by
  have hA : Averages L r := averages_of2 hr
  obtain ⟨_, _, c3, _⟩ := checkResize_ok.1 h.checked
  obtain ⟨qv, qh, o, tv, th, Tv, Th, o1, _, _, o4⟩ := u16X86_values (h.lb (L := L) hA hd hb) cpu fma fused
  obtain ⟨qv', qh', o', tv', th', _, _, o1', _, _, o4'⟩ := u16X86_values (h'.lb (L := L) hA hd hb') cpu fma fused
  rw [← hp.height] at tv'
  rw [← hp.width] at th'
  obtain rfl := isTable_unique tv tv'
  obtain rfl := isTable_unique th th'
  rw [ho] at o1
  obtain rfl : out = o := by simpa using o1
  rw [ho'] at o1'
  obtain rfl : out' = o' := by simpa using o1'
  obtain ⟨nv, nh⟩ := h.nonneg hA
  have he := sumErr_pos n
  intro y x c hy hx hc
  have sv := sum_near hr c3.2.1 h.small.2 (fun a => (h.area a).2) tv (ht.1 _ tv) hy
  have sh := sum_near hr c3.1 h.small.1 (fun a => (h.area a).1) th (ht.2 _ th) hx
  unfold pxD
  rw [o4 y x c hy hx hc, o4' y x c hy hx hc, ← hp.width, ← hp.height, Option.getD_some, Option.getD_some]
  set H := 2 ^ into.bitDepth - 1 with hH
  have hH0 : (0 : ℚ) ≤ H := by positivity
  set e := sumErr n with hee
  have k0 : 0 ≤ (H : ℚ) * e := by positivity
  have k1 : (H : ℚ) * e + 2 ≤ negErr H n := by
    unfold negErr; rw [← hee]; nlinarith [mul_nonneg k0 he.le]
  have k2 : (H : ℚ) * e + (H * e + 2) * (1 + e) + 2 * (1 / 2) = negErr H n := by
    unfold negErr; rw [← hee]; ring
  refine sepFun_rel3 (A := Opposite H 0) (B := Opposite H (H * e + 2)) (C := Opposite H (negErr H n))
    (vs := fun i => (qv.bound i).start) (vn := fun i => (qv.bound i).size)
    (hs := fun i => (qh.bound i).start) (hn := fun i => (qh.bound i).size) (Tv.inside y hy) (Th.inside x hx) hy hx hc
    (hp.rows h.channels.1) (fun _ _ => Opposite.mono (by linarith)) (fun _ _ => Opposite.mono k1)
    (fun q hq a => ?_) (fun r r' a => ?_)
  · refine Opposite.mono (d := H * e + 0 * (1 + e) + 2 * 1) (by linarith) ?_
    unfold vLb
    split_ifs
    · exact opposite_pass (nv _ tv _) sv le_rfl (fun k hk => a k _ hk (readColumn_lt (groupOf_cases cpu) hq))
        ((roundedBy_round _ _ _ _).mono (by norm_num)) ((roundedBy_round _ _ _ _).mono (by norm_num))
    · exact opposite_pass (nv _ tv _) sv le_rfl (fun k hk => a k _ hk hq) (roundedBy_floor _ _ _ _) (roundedBy_floor _ _ _ _)
  · rw [← k2]
    exact opposite_pass (nh _ th _) sh (by linarith) (fun k hk => a k c hk hc) (roundedBy_round _ _ _ _) (roundedBy_round _ _ _ _)

/-- **C275, u16 up to 12 bits, AArch64 without half precision.** -/
theorem C275_negative_u16_neon {W N n : ℕ} {L : Lib} {r : ResamplingFunction} {store store' into out out' : Image ℕ}
    (hr : r ∈ averaging2) (h : AcceptedCall16 W N r store into) (h' : AcceptedCall16 W N r store' into)
    (hd : into.bitDepth ≤ 12) (hb : ∀ v ∈ store.buffer, v ≤ 2 ^ into.bitDepth - 1)
    (hb' : ∀ v ∈ store'.buffer, v ≤ 2 ^ into.bitDepth - 1) (ht : BothTables L r store into (AtMostTaps n))
    (hp : Negative N (2 ^ into.bitDepth - 1) store store')
    (ho : genericResize W N (formatU16Neon false N) L r store into = some (.ok (), out))
    (ho' : genericResize W N (formatU16Neon false N) L r store' into = some (.ok (), out')) :
    ∀ y x c, y < into.height → x < into.width → c < N →
      Opposite (2 ^ into.bitDepth - 1) (negErr (2 ^ into.bitDepth - 1) n) (pxD 0 out.buffer (into.strideOf N) N y x c)
        (pxD 0 out'.buffer (into.strideOf N) N y x c) := by
  have hA : Averages L r := averages_of2 hr
  obtain ⟨_, _, c3, _⟩ := checkResize_ok.1 h.checked
  obtain ⟨qv, qh, o, tv, th, Tv, Th, o1, _, _, o4⟩ := u16Neon_values (h.lb (L := L) hA hd hb)
  obtain ⟨qv', qh', o', tv', th', _, _, o1', _, _, o4'⟩ := u16Neon_values (h'.lb (L := L) hA hd hb')
  rw [← hp.height] at tv'
  rw [← hp.width] at th'
  obtain rfl := isTable_unique tv tv'
  obtain rfl := isTable_unique th th'
  rw [ho] at o1
  obtain rfl : out = o := by simpa using o1
  rw [ho'] at o1'
  obtain rfl : out' = o' := by simpa using o1'
  obtain ⟨nv, nh⟩ := h.nonneg hA
  have he := sumErr_pos n
  intro y x c hy hx hc
  have sv := sum_near hr c3.2.1 h.small.2 (fun a => (h.area a).2) tv (ht.1 _ tv) hy
  have sh := sum_near hr c3.1 h.small.1 (fun a => (h.area a).1) th (ht.2 _ th) hx
  unfold pxD
  rw [o4 y x c hy hx hc, o4' y x c hy hx hc, ← hp.width, ← hp.height, Option.getD_some, Option.getD_some]
  set H := 2 ^ into.bitDepth - 1 with hH
  have hH0 : (0 : ℚ) ≤ H := by positivity
  set e := sumErr n with hee
  have k0 : 0 ≤ (H : ℚ) * e := by positivity
  have k1 : (H : ℚ) * e + 2 ≤ negErr H n := by
    unfold negErr; rw [← hee]; nlinarith [mul_nonneg k0 he.le]
  have k2 : (H : ℚ) * e + (H * e + 2) * (1 + e) + 2 * (1 / 2) = negErr H n := by
    unfold negErr; rw [← hee]; ring
  refine sepFun_rel3 (A := Opposite H 0) (B := Opposite H (H * e + 2)) (C := Opposite H (negErr H n))
    (vs := fun i => (qv.bound i).start) (vn := fun i => (qv.bound i).size)
    (hs := fun i => (qh.bound i).start) (hn := fun i => (qh.bound i).size) (Tv.inside y hy) (Th.inside x hx) hy hx hc
    (hp.rows h.channels.1) (fun _ _ => Opposite.mono (by linarith)) (fun _ _ => Opposite.mono k1)
    (fun q hq a => ?_) (fun r r' a => ?_)
  · refine Opposite.mono (d := H * e + 0 * (1 + e) + 2 * 1) (by linarith) ?_
    exact opposite_pass (nv _ tv _) sv le_rfl (fun k hk => a k _ hk (readColumn16_lt hq))
      ((roundedBy_half _ _ _ _).mono (by norm_num)) ((roundedBy_half _ _ _ _).mono (by norm_num))
  · rw [← k2]
    unfold hDown
    split_ifs
    · exact opposite_pass (nh _ th _) sh (by linarith) (fun k hk => a k c hk hc) (roundedBy_half _ _ _ _) (roundedBy_half _ _ _ _)
    · exact opposite_pass (nh _ th _) sh (by linarith) (fun k hk => a k c hk hc) (roundedBy_round _ _ _ _) (roundedBy_round _ _ _ _)

/-- **C275, u16 up to 12 bits, x86 with AVX-512.** One rounding less than the other handlers. -/
theorem C275_negative_u16_avx512 {W N n : ℕ} {L : Lib} {r : ResamplingFunction} {store store' into out out' : Image ℕ}
    (hr : r ∈ averaging2) (h : AcceptedCall16 W N r store into) (h' : AcceptedCall16 W N r store' into)
    (hd : into.bitDepth ≤ 12) (hb : ∀ v ∈ store.buffer, v ≤ 2 ^ into.bitDepth - 1)
    (hb' : ∀ v ∈ store'.buffer, v ≤ 2 ^ into.bitDepth - 1) (ht : BothTables L r store into (AtMostTaps n))
    {cpu : Cpu512} (h5 : cpu.avx512 = true) (dot fma fused : Bool)
    (hp : Negative N (2 ^ into.bitDepth - 1) store store')
    (ho : genericResize W N (formatU16X512 cpu dot fma fused N) L r store into = some (.ok (), out))
    (ho' : genericResize W N (formatU16X512 cpu dot fma fused N) L r store' into = some (.ok (), out')) :
    ∀ y x c, y < into.height → x < into.width → c < N →
      Opposite (2 ^ into.bitDepth - 1) (negErr (2 ^ into.bitDepth - 1) n - (1 + sumErr n)) (pxD 0 out.buffer (into.strideOf N) N y x c)
        (pxD 0 out'.buffer (into.strideOf N) N y x c) := by
  have hA : Averages L r := averages_of2 hr
  obtain ⟨_, _, c3, _⟩ := checkResize_ok.1 h.checked
  obtain ⟨qv, qh, o, tv, th, Tv, Th, o1, _, _, o4⟩ := C231_values (h.lb (L := L) hA hd hb) h5 dot fma fused
  obtain ⟨qv', qh', o', tv', th', _, _, o1', _, _, o4'⟩ := C231_values (h'.lb (L := L) hA hd hb') h5 dot fma fused
  rw [← hp.height] at tv'
  rw [← hp.width] at th'
  obtain rfl := isTable_unique tv tv'
  obtain rfl := isTable_unique th th'
  rw [ho] at o1
  obtain rfl : out = o := by simpa using o1
  rw [ho'] at o1'
  obtain rfl : out' = o' := by simpa using o1'
  obtain ⟨nv, nh⟩ := h.nonneg hA
  have he := sumErr_pos n
  intro y x c hy hx hc
  have sv := sum_near hr c3.2.1 h.small.2 (fun a => (h.area a).2) tv (ht.1 _ tv) hy
  have sh := sum_near hr c3.1 h.small.1 (fun a => (h.area a).1) th (ht.2 _ th) hx
  unfold pxD
  rw [o4 y x c hy hx hc, o4' y x c hy hx hc, ← hp.width, ← hp.height, Option.getD_some, Option.getD_some]
  set H := 2 ^ into.bitDepth - 1 with hH
  have hH0 : (0 : ℚ) ≤ H := by positivity
  set e := sumErr n with hee
  have k0 : 0 ≤ (H : ℚ) * e := by positivity
  have k1 : (H : ℚ) * e + 1 ≤ negErr H n - (1 + e) := by
    unfold negErr; rw [← hee]; nlinarith [mul_nonneg k0 he.le]
  have k2 : (H : ℚ) * e + (H * e + 1) * (1 + e) + 2 * (1 / 2) = negErr H n - (1 + e) := by
    unfold negErr; rw [← hee]; ring
  refine separable_rel3 (A := Opposite H 0) (B := Opposite H (H * e + 1)) (C := Opposite H (negErr H n - (1 + e)))
    (vn := fun i => (qv.bound i).size) (hn := fun i => (qh.bound i).size) (Tv.inside y hy) (Th.inside x hx) hy hx
    (fun j q hj hq => ?_) (fun _ _ => Opposite.mono (by linarith)) (fun _ _ => Opposite.mono k1)
    (fun a b hab => ?_) (fun a b hab => ?_)
  · have := hp.samples j q c hj hq hc
    unfold Opposite
    rw [← this]; push_cast; simp
  · refine Opposite.mono (d := H * e + 0 * (1 + e) + 2 * (1 / 2)) (by linarith) ?_
    exact opposite_pass (nv _ tv _) sv le_rfl hab (roundedBy_round _ _ _ _) (roundedBy_round _ _ _ _)
  · rw [← k2]
    exact opposite_pass (nh _ th _) sh (by linarith) hab (roundedBy_round _ _ _ _) (roundedBy_round _ _ _ _)

/-! ### the hypotheses are met -/

def Demo.uneg : Image ℕ := { Demo.usrc 10 with buffer := (Demo.usrc 10).buffer.map (fun v => 1023 - v) }

theorem Demo.unegative : Negative 4 1023 (Demo.usrc 10) Demo.uneg := by
  have : ∀ y < 5, ∀ x < 8, ∀ c < 4, pxD 0 (Demo.usrc 10).buffer 32 4 y x c + pxD 0 Demo.uneg.buffer 32 4 y x c = 1023 := by
    decide +kernel
  exact ⟨rfl, rfl, fun y x c hy hx hc => this y hy x hx c hc⟩

theorem Demo.uneg10 : AcceptedCall16 (2 ^ 64) 4 .bilinear Demo.uneg (Demo.udst 10) := by
  constructor <;> decide +kernel

example {out out' : Image ℕ} (cpu : Cpu) (fma fused : Bool)
    (ho : genericResize (2 ^ 64) 4 (formatU16X86 cpu fma fused 4) demoLib .bilinear (Demo.usrc 10) (Demo.udst 10) = some (.ok (), out))
    (ho' : genericResize (2 ^ 64) 4 (formatU16X86 cpu fma fused 4) demoLib .bilinear Demo.uneg (Demo.udst 10) = some (.ok (), out')) :
    ∀ y x c, y < (Demo.udst 10).height → x < (Demo.udst 10).width → c < 4 →
      Opposite (2 ^ (Demo.udst 10).bitDepth - 1) (negErr (2 ^ (Demo.udst 10).bitDepth - 1) 16)
        (pxD 0 out.buffer ((Demo.udst 10).strideOf 4) 4 y x c) (pxD 0 out'.buffer ((Demo.udst 10).strideOf 4) 4 y x c) :=
  C275_negative_u16 (by decide) Demo.ucall10 Demo.uneg10 (by decide) (by decide +kernel) (by decide +kernel)
    Demo.urange.windows cpu fma fused Demo.unegative ho ho'

def Demo.xneg : Image ℕ := { Demo.xsrc with buffer := Demo.xsrc.buffer.map (fun v => 255 - v) }

example : Negative 4 255 Demo.xsrc Demo.xneg ∧ AcceptedCall (2 ^ 64) 4 .bilinear Demo.xneg Demo.xdst ∧
    (∀ v ∈ Demo.xneg.buffer, v ≤ 255) ∧ BothTables demoLib .bilinear Demo.xsrc Demo.xdst Taps124 := by
  have s : ∀ y < Demo.xsrc.height, ∀ x < Demo.xsrc.width, ∀ c < 4, pxD 0 Demo.xsrc.buffer (Demo.xsrc.strideOf 4) 4 y x c +
      pxD 0 Demo.xneg.buffer (Demo.xneg.strideOf 4) 4 y x c = 255 := by decide +kernel
  have tb : ∀ (inn out : ℕ), ((tableOf demoLib .bilinear inn out).map fun t => decide (t.kernelSize ≤ 16)) = some true →
      1 ≤ inn → inn ≤ 2 ^ 23 → ∀ q, IsTable demoLib .bilinear inn out q → Taps124 q out := by
    intro inn out ht h1 h2 q hq i hi
    obtain ⟨fw, e, rfl⟩ := hq
    obtain ⟨fw', e', v, sh⟩ := table_exists demoLib .bilinear (out := out) h1 h2 (by simp)
    rw [e] at e' ht
    obtain rfl := Option.some.inj e'
    have : fw.kernelSize ≤ 16 := by simpa using ht
    have hv := v.size_le i hi
    rw [← sh.1] at hv
    exact le_trans hv (by omega)
  exact ⟨⟨rfl, rfl, fun y x c hy hx hc => s y hy x hx c hc⟩, by constructor <;> decide +kernel, by decide +kernel,
    tb _ _ (by decide +kernel) (by decide) (by decide), tb _ _ (by decide +kernel) (by decide) (by decide)⟩

example : Full32 true .preferQuality ∧ (3 ≤ 3) ∧ Demo.nsrc.width * 3 % 16 < 8 ∧
    AcceptedCall (2 ^ 64) 3 .bilinear Demo.nsrc Demo.ndst ∧
    Negative 3 255 Demo.nsrc { Demo.nsrc with buffer := Demo.nsrc.buffer.map (fun v => 255 - v) } := by
  have s : ∀ y < 3, ∀ x < 6, ∀ c < 3, pxD 0 Demo.nsrc.buffer 18 3 y x c +
      pxD 0 (Demo.nsrc.buffer.map (fun v => 255 - v)) 18 3 y x c = 255 := by decide +kernel
  exact ⟨Or.inl rfl, by decide, by decide, Demo.naccepted.call, ⟨rfl, rfl, fun y x c hy hx hc => s y hy x hx c hc⟩⟩

example {out out' : Image ℕ} (cpu : Cpu512) (h5 : cpu.avx512 = true) (dot fma fused : Bool)
    (ho : genericResize (2 ^ 64) 4 (formatU16X512 cpu dot fma fused 4) demoLib .bilinear (Demo.usrc 10) (Demo.udst 10) = some (.ok (), out))
    (ho' : genericResize (2 ^ 64) 4 (formatU16X512 cpu dot fma fused 4) demoLib .bilinear Demo.uneg (Demo.udst 10) = some (.ok (), out')) :
    ∀ y x c, y < (Demo.udst 10).height → x < (Demo.udst 10).width → c < 4 →
      Opposite (2 ^ (Demo.udst 10).bitDepth - 1)
        (negErr (2 ^ (Demo.udst 10).bitDepth - 1) 16 - (1 + sumErr 16))
        (pxD 0 out.buffer ((Demo.udst 10).strideOf 4) 4 y x c) (pxD 0 out'.buffer ((Demo.udst 10).strideOf 4) 4 y x c) :=
  C275_negative_u16_avx512 (by decide) Demo.ucall10 Demo.uneg10 (by decide) (by decide +kernel) (by decide +kernel)
    Demo.urange.windows h5 dot fma fused Demo.unegative ho ho'

end PicScale
