import Verif.Props.OrderU16
import Verif.Lemmas.F16Enc

/-!
Property theorem C272: brighter u16 pictures of more than 12 bits give brighter results.
-/

namespace PicScale

open F32 Spec Finset

/-! ### sums -/

theorem mlaf_mono (f : Bool) {c c' a a' w : ℚ} (hw : 0 ≤ w) (hc : c ≤ c') (ha : a ≤ a') :
    mlaf rnd f c a w ≤ mlaf rnd f c' a' w := by
  have h := mul_le_mul_of_nonneg_right ha hw
  unfold mlaf
  split_ifs
  · exact rnd_mono (add_le_add hc h)
  · exact rnd_mono (add_le_add hc (rnd_mono h))

theorem leftSum_mono (f : Bool) {p p' w : ℕ → ℚ} {n : ℕ} (hn : 1 ≤ n) (hw : ∀ k, 0 ≤ w k) (hp : ∀ k, k < n → p k ≤ p' k) :
    leftSum (fun a b => rnd (a * b)) (mlaf rnd f) p w n ≤ leftSum (fun a b => rnd (a * b)) (mlaf rnd f) p' w n := by
  have key : ∀ m, m + 1 ≤ n → chain (mlaf rnd f) (rnd (p 0 * w 0)) (fun k => p (k + 1)) (fun k => w (k + 1)) m ≤
      chain (mlaf rnd f) (rnd (p' 0 * w 0)) (fun k => p' (k + 1)) (fun k => w (k + 1)) m := by
    intro m
    induction m with
    | zero => intro _; exact rnd_mono (mul_le_mul_of_nonneg_right (hp 0 (by omega)) (hw 0))
    | succ m ih => intro h; exact mlaf_mono f (hw _) (ih (by omega)) (hp _ (by omega))
  exact key (n - 1) (by omega)

theorem ceilClamp_mono (d : ℕ) {a b : ℚ} (h : a ≤ b) : ceilClamp d a ≤ ceilClamp d b := by
  exact Int.toNat_le_toNat (max_le_max le_rfl (min_le_min (Int.ceil_le_ceil h) le_rfl))

theorem v16_mono (fused : Bool) {d : ℕ} (h12 : 12 < d) (fw : FilterWeights ℚ) {i : ℕ} {p p' : ℕ → ℕ} (hn : 1 ≤ (fw.bound i).size)
    (hw : ∀ k, 0 ≤ fw.weight i k) (hp : ∀ k, k < (fw.bound i).size → p k ≤ p' k) :
    v16 fused d fw i p ≤ v16 fused d fw i p' := by
  unfold v16
  rw [if_pos h12, if_pos h12]
  exact ceilClamp_mono d (leftSum_mono fused hn hw fun k hk => by exact_mod_cast hp k hk)

theorem h16_mono (fused : Bool) {d : ℕ} (h12 : 12 < d) (fw : FilterWeights ℚ) {i : ℕ} {p p' : ℕ → ℕ} (hn : 1 ≤ (fw.bound i).size)
    (hw : ∀ k, 0 ≤ fw.weight i k) (hp : ∀ k, k < (fw.bound i).size → p k ≤ p' k) :
    h16 fused d fw i p ≤ h16 fused d fw i p' := by
  unfold h16
  rw [if_pos h12, if_pos h12]
  exact ceilClamp_mono d (leftSum_mono fused hn hw fun k hk => by exact_mod_cast hp k hk)

theorem tapF_mono {w : List ℚ} {s s' : ℕ → ℕ} {n : ℕ} (hw : ∀ k, 0 ≤ w.getD k 0) (hp : ∀ k, k < n → s k ≤ s' k) :
    tapsL tapF 0 w s (List.range n) ≤ tapsL tapF 0 w s' (List.range n) := by
  induction n with
  | zero => exact le_refl _
  | succ n ih =>
    rw [List.range_succ, tapsL_snoc, tapsL_snoc]
    exact mlaf_mono true (hw n) (ih fun k hk => hp k (by omega)) (by exact_mod_cast hp n (by omega))

theorem nearestClamp_mono (d : ℕ) {a b : ℚ} (h : a ≤ b) : nearestClamp d a ≤ nearestClamp d b :=
  clamp_mono _ (Int.floor_le_floor (by linarith))

theorem fpTailAcc_mono (f : Bool) {w : List ℚ} {s s' : ℕ → ℕ} {n : ℕ} (hw : ∀ k, 0 ≤ w.getD k 0)
    (hp : ∀ k, k < n → s k ≤ s' k) : fpTailAcc f w s n ≤ fpTailAcc f w s' n := by
  induction n with
  | zero => exact le_refl _
  | succ n ih =>
    rw [fpTailAcc_succ, fpTailAcc_succ]
    exact mlaf_mono f (hw n) (ih fun k hk => hp k (by omega)) (by exact_mod_cast hp n (by omega))

theorem fpFold_mono (f : Bool) {w : List ℚ} {s s' : ℕ → ℕ} {L : List (ℕ × ℕ)} (hw : ∀ k, 0 ≤ w.getD k 0)
    (hp : ∀ t ∈ L, s t.2 % 65536 ≤ s' t.2 % 65536) : 0 ≤ fpFold f w s L ∧ fpFold f w s L ≤ fpFold f w s' L := by
  induction L using List.reverseRecOn with
  | nil => exact ⟨le_refl _, le_refl _⟩
  | append_singleton L t ih =>
    obtain ⟨a, b⟩ := ih fun u hu => hp u (List.mem_append_left _ hu)
    have ht := hp t (by simp)
    rw [fpFold_snoc, fpFold_snoc]
    refine ⟨?_, mlaf_mono f (hw _) b (by exact_mod_cast ht)⟩
    have := mlaf_mono f (hw t.1) a (show (0 : ℚ) ≤ ((s t.2 % 65536 : ℕ) : ℚ) by positivity)
    refine le_trans (le_of_eq ?_) this
    unfold mlaf
    split_ifs <;> simp

/-! ### the sums do not leave the 32-bit integers -/

theorem flat8_sum (g : ℕ → ℚ) (m : ℕ) :
    (((List.range m).flatMap (fun i => taps8 (i * 8))).map fun t => g t.1).sum = ∑ k ∈ range (8 * m), g k := by
  induction m with
  | zero => simp
  | succ m ih =>
    rw [flatMap_taps8, List.map_append, List.sum_append, ih, show 8 * (m + 1) = 8 * m + 8 by ring, Nat.mul_comm m 8]
    generalize 8 * m = j
    show _ = ∑ k ∈ range (j + 1 + 1 + 1 + 1 + 1 + 1 + 1 + 1), g k
    simp only [sum_range_succ, taps8, List.map_cons, List.map_nil, List.sum_cons, List.sum_nil]
    ring

theorem taps1_sum (g : ℕ → ℚ) {j n : ℕ} (h : j ≤ n) :
    ∑ k ∈ range j, g k + ((Spec.taps1 j n).map fun t => g t.1).sum = ∑ k ∈ range n, g k := by
  obtain ⟨m, rfl⟩ : ∃ m, n = j + m := ⟨n - j, by omega⟩
  unfold Spec.taps1
  rw [Nat.add_sub_cancel_left, List.map_map, Finset.sum_range_add]
  exact congrArg _ (PicScale.sum_map_range (fun k => g (j + k)) m)

theorem fpTaps_sum (g : ℕ → ℚ) {n : ℕ} (hn : 1 ≤ n) : ((fpTaps n).map fun t => g t.1).sum = ∑ k ∈ range n, g k := by
  unfold fpTaps
  dsimp only
  have e4 : ∀ j, ∑ k ∈ range j, g k + ((taps4 j).map fun t => g t.1).sum = ∑ k ∈ range (j + 4), g k := by
    intro j
    show _ = ∑ k ∈ range (j + 1 + 1 + 1 + 1), g k
    simp only [sum_range_succ, taps4, List.map_cons, List.map_nil, List.sum_cons, List.sum_nil]
    ring
  have e2 : ∀ j, ∑ k ∈ range j, g k + ((taps2 j).map fun t => g t.1).sum = ∑ k ∈ range (j + 2), g k := by
    intro j
    show _ = ∑ k ∈ range (j + 1 + 1), g k
    simp only [sum_range_succ, taps2, List.map_cons, List.map_nil, List.sum_cons, List.sum_nil]
    ring
  rw [List.map_append, List.map_append, List.map_append, List.sum_append, List.sum_append, List.sum_append, flat8_sum,
    Nat.mul_comm 8]
  generalize hj : (n - 1) / 8 * 8 = j at *
  have hjn : j < n := by omega
  by_cases h4 : 4 < n - j
  · simp only [if_pos h4, e4]
    by_cases h2 : 2 < n - (j + 4)
    · simp only [if_pos h2, e2]; exact taps1_sum g (by omega)
    · simp only [if_neg h2, List.map_nil, List.sum_nil, add_zero]; exact taps1_sum g (by omega)
  · simp only [if_neg h4, List.map_nil, List.sum_nil, add_zero]
    by_cases h2 : 2 < n - j
    · simp only [if_pos h2, e2]; exact taps1_sum g (by omega)
    · simp only [if_neg h2, List.map_nil, List.sum_nil, add_zero]; exact taps1_sum g (by omega)

theorem list_sum_scale (g : ℕ → ℚ) (hg : ∀ k, 0 ≤ g k) (L : List (ℕ × ℕ)) (p : ℕ → ℚ) (hp : ∀ k, 0 ≤ p k ∧ p k ≤ 65535) :
    0 ≤ (L.map fun t => p t.2 * g t.1).sum ∧ (L.map fun t => p t.2 * g t.1).sum ≤ 65535 * (L.map fun t => g t.1).sum := by
  induction L with
  | nil => simp
  | cons t L ih =>
    simp only [List.map_cons, List.sum_cons]
    have a := mul_nonneg (hp t.2).1 (hg t.1)
    have b := mul_le_mul_of_nonneg_right (hp t.2).2 (hg t.1)
    constructor
    · linarith [ih.1]
    · linarith [ih.2]

/-- Window sums of samples up to 65535 with weights of sum at most five. -/
theorem fpFold_lt (f : Bool) {w : List ℚ} {s : ℕ → ℕ} {n : ℕ} {L : List (ℕ × ℕ)} (hn : n ≤ 2 ^ 15)
    (hL : ∀ g : ℕ → ℚ, (L.map fun t => g t.1).sum = ∑ k ∈ range n, g k) (hw : ∀ k, 0 ≤ w.getD k 0)
    (h5 : ∑ k ∈ range n, w.getD k 0 ≤ 5) : fpFold f w s L ≤ 2 ^ 30 := by
  set p : ℕ → ℚ := fun k => ((s k % 65536 : ℕ) : ℚ) with hpd
  have hp : ∀ k, 0 ≤ p k ∧ p k ≤ 65535 := fun k => by
    have : s k % 65536 ≤ 65535 := by omega
    have h2 : ((s k % 65536 : ℕ) : ℚ) ≤ 65535 := by exact_mod_cast this
    exact ⟨Nat.cast_nonneg _, h2⟩
  have hlen : L.length = n := by
    have := hL fun _ => 1
    simpa using this
  have e : fpFold f w s L = tapSum (mlaOf rnd f) 0 p (fun k => w.getD k 0) (L.map fun t => (some t.2, some t.1)) := by
    clear hL hlen
    induction L using List.reverseRecOn with
    | nil => rfl
    | append_singleton L t ih =>
      rw [fpFold_snoc, List.map_append, List.map_singleton, tapSum_snoc, ih, ← ratOps_mulAdd, ratOps_mlaf]
      rfl
  have ex : ∀ q v : ℕ → ℚ, tapExact q v (L.map fun t => (some t.2, some t.1)) = (L.map fun t => q t.2 * v t.1).sum := by
    intro q v
    unfold tapExact
    rw [List.map_map]
    rfl
  have nr := tapSum_near (ρ := rnd) rnd_near f p (fun k => w.getD k 0) (L.map fun t => (some t.2, some t.1))
  rw [List.length_map, hlen, ex, ex] at nr
  have nr' := near_floatErr (n := n) (nr.mono (by omega) (by omega))
  simp only [abs_of_nonneg (hp _).1, abs_of_nonneg (hw _)] at nr'
  obtain ⟨t0, t1⟩ := list_sum_scale (fun k => w.getD k 0) hw L p hp
  have hT : (L.map fun t => p t.2 * w.getD t.1 0).sum ≤ 327675 := by
    refine le_trans t1 ?_
    rw [hL fun k => w.getD k 0]
    linarith
  have b := C90_bound_size n (by omega) t0
  have hnq : (n : ℚ) ≤ 32768 := by exact_mod_cast (show n ≤ 32768 by omega)
  have b1 : ((n : ℚ) + 3) / 2 ^ 23 * (L.map fun t => p t.2 * w.getD t.1 0).sum ≤ 1 * 327675 :=
    mul_le_mul (by rw [div_le_one (by norm_num)]; norm_num; linarith) hT t0 (by norm_num)
  have b2 : (8 * (n : ℚ) + 3) / 2 ^ 149 ≤ 1 := by
    rw [div_le_one (by norm_num)]; norm_num; linarith
  have nr'' : |tapSum (mlaOf rnd f) 0 p (fun k => w.getD k 0) (L.map fun t => (some t.2, some t.1)) -
      (L.map fun t => p t.2 * w.getD t.1 0).sum| ≤ Spec.floatErr n (L.map fun t => p t.2 * w.getD t.1 0).sum := nr'
  rw [e]
  rw [abs_le] at nr''
  have q := nr''.2
  have : (327675 : ℚ) + (1 * 327675 + 1) ≤ 2 ^ 30 := by norm_num
  linarith

theorem fpVal_mono {d : ℕ} (hd : d ≤ 16) {a b : ℚ} (h0 : 0 ≤ a) (h : a ≤ b) (hb : b ≤ 2 ^ 30) : fpVal d a ≤ fpVal d b := by
  have hp := two_pow_le16 hd
  have h1 : 1 ≤ 2 ^ d := Nat.one_le_two_pow
  have hm : 2 ^ d - 1 < 65536 := by omega
  have r0 : 0 ≤ rhe a := by
    have := rhe_mono h0
    have e : rhe 0 = 0 := by decide +kernel
    omega
  have r1 := rhe_mono h
  have r2 : rhe b ≤ 2 ^ 30 := F16.rhe_le (by push_cast; exact hb)
  unfold fpVal cvt1
  rw [if_pos (by omega), if_pos (by omega), ← cast_two_pow]
  generalize 2 ^ d - 1 = m at *
  rw [i32_eq_self (v := (m : ℤ)) (by omega) (by omega)]
  unfold u16
  omega

/-! ### C272 -/

/-- The float tables of an accepted call with an averaging filter. -/
theorem AcceptedCall16.fnonneg {W N : ℕ} {L : Lib} {r : ResamplingFunction} {store into : Image ℕ} (hr : Averages L r)
    (h : AcceptedCall16 W N r store into) :
    (∀ fw, tableOf L r store.height into.height = some fw → ∀ i k, 0 ≤ fw.weight i k) ∧
      ∀ fw, tableOf L r store.width into.width = some fw → ∀ i k, 0 ≤ fw.weight i k := by
  obtain ⟨_, _, c3, _⟩ := checkResize_ok.1 h.checked
  constructor
  · intro fw e i k
    obtain ⟨fw', e', hn⟩ := C16_nonneg_partial L r hr store.height into.height c3.2.1 h.small.2 (fun ha => (h.area ha).2)
    rw [show generateWeights rnd (filterOf rnd L r) store.height into.height = some fw from e] at e'
    obtain rfl := Option.some.inj e'
    exact weight_nonneg_of hn i k
  · intro fw e i k
    obtain ⟨fw', e', hn⟩ := C16_nonneg_partial L r hr store.width into.width c3.1 h.small.1 (fun ha => (h.area ha).1)
    rw [show generateWeights rnd (filterOf rnd L r) store.width into.width = some fw from e] at e'
    obtain rfl := Option.some.inj e'
    exact weight_nonneg_of hn i k

/-- A sample and a larger one, both of 16 bits. -/
def Le16 (a b : ℕ) : Prop := a ≤ b ∧ b ≤ 65535

theorem Le16.mod {a b : ℕ} (h : Le16 a b) : a % 65536 ≤ b % 65536 := by
  obtain ⟨h1, h2⟩ := h
  omega

/-- **C272, AArch64.** Above 12 bits, with a filter without negative weights, raising samples of a u16 picture never lowers
a sample of the result; with or without half precision arithmetic. -/
theorem C272_deep_monotone_neon {W N : ℕ} {L : Lib} {r : ResamplingFunction} (hr : Averages L r)
    {store store' into out out' : Image ℕ} (h : AcceptedCall16 W N r store into) (h' : AcceptedCall16 W N r store' into)
    (h12 : 12 < into.bitDepth) (half : Bool) (hp : Brighter N store store')
    (ho : genericResize W N (formatU16Neon half N) L r store into = some (.ok (), out))
    (ho' : genericResize W N (formatU16Neon half N) L r store' into = some (.ok (), out')) :
    ∀ y x c, y < into.height → x < into.width → c < N →
      pxD 0 out.buffer (into.strideOf N) N y x c ≤ pxD 0 out'.buffer (into.strideOf N) N y x c := by
  obtain ⟨vf, hf, o, ev, eh, Tv, Th, _, _, o1, _, _, o4⟩ := u16Neon_raw (L := L) h half
  obtain ⟨vf', hf', o', ev', eh', _, _, _, _, o1', _, _, o4'⟩ := u16Neon_raw (L := L) h' half
  rw [← hp.height, ev] at ev'
  rw [← hp.width, eh] at eh'
  obtain rfl := Option.some.inj ev'
  obtain rfl := Option.some.inj eh'
  rw [ho] at o1
  obtain rfl : out = o := by simpa using o1
  rw [ho'] at o1'
  obtain rfl : out' = o' := by simpa using o1'
  obtain ⟨nv, nh⟩ := h.fnonneg hr
  intro y x c hy hx hc
  unfold pxD
  rw [o4 y x c hy hx hc, o4' y x c hy hx hc, ← hp.width, ← hp.height, Option.getD_some, Option.getD_some]
  refine sepFun_relAll (R := (· ≤ ·)) (vs := fun i => (vf.bound i).start) (vn := fun i => (vf.bound i).size)
    (hs := fun i => (hf.bound i).start) (hn := fun i => (hf.bound i).size) (Tv.inside y hy) (Th.inside x hx) hy hx hc
    (hp.rows h.channels.1) (fun q hq a => ?_) (fun r r' a => ?_)
  · rw [vvNeon16_deep _ h12 h.depth_le, vvNeon16_deep _ h12 h.depth_le]
    refine nearestClamp_mono _ (tapF_mono (fun k => ?_) fun k hk => a k _ hk (readColumn16_lt hq))
    rw [rowW_getD]; exact nv _ ev y k
  · unfold hvNeon16
    dsimp only
    rw [if_pos h12, if_pos h12]
    exact h16_mono true h12 hf (Th.size_pos x hx) (nh _ eh x) fun k hk => a k c hk hc

/-- **C272, x86.** Above 12 bits, with a support-two averaging filter and up to 32768 rows and columns, raising samples of a
u16 picture never lowers a sample of the result, on every x86 CPU — whatever columns and taps the handlers use. -/
theorem C272_deep_monotone {W N : ℕ} {L : Lib} {r : ResamplingFunction} (hr : r ∈ averaging2)
    {store store' into out out' : Image ℕ} (h : AcceptedCall16 W N r store into) (h' : AcceptedCall16 W N r store' into)
    (h15 : store.width ≤ 2 ^ 15 ∧ store.height ≤ 2 ^ 15)
    (h12 : 12 < into.bitDepth) (hb' : ∀ v ∈ store'.buffer, v ≤ 65535) (cpu : Cpu) (fma fused : Bool)
    (hp : Brighter N store store')
    (ho : genericResize W N (formatU16X86 cpu fma fused N) L r store into = some (.ok (), out))
    (ho' : genericResize W N (formatU16X86 cpu fma fused N) L r store' into = some (.ok (), out')) :
    ∀ y x c, y < into.height → x < into.width → c < N →
      pxD 0 out.buffer (into.strideOf N) N y x c ≤ pxD 0 out'.buffer (into.strideOf N) N y x c := by
  obtain ⟨_, _, c3, _⟩ := checkResize_ok.1 h.checked
  obtain ⟨vf, hf, o, ev, eh, Tv, Th, _, _, o1, _, _, o4⟩ := u16X86_raw (L := L) h cpu fma fused
  obtain ⟨vf', hf', o', ev', eh', _, _, _, _, o1', _, _, o4'⟩ := u16X86_raw (L := L) h' cpu fma fused
  rw [← hp.height, ev] at ev'
  rw [← hp.width, eh] at eh'
  obtain rfl := Option.some.inj ev'
  obtain rfl := Option.some.inj eh'
  rw [ho] at o1
  obtain rfl : out = o := by simpa using o1
  rw [ho'] at o1'
  obtain rfl : out' = o' := by simpa using o1'
  obtain ⟨nv, nh⟩ := h.fnonneg (averages_of2 (L := L) hr)
  have hd := h.depth_le
  have hle : 2 ^ into.bitDepth - 1 ≤ 65535 := by have := two_pow_le16 hd; omega
  intro y x c hy hx hc
  have sv := normalised_weights (Or.inl hr) c3.2.1 h15.2 (fun a => (h.area a).2) ev hy
  have sh := normalised_weights (Or.inl hr) c3.1 h15.1 (fun a => (h.area a).1) eh hx
  unfold pxD
  rw [o4 y x c hy hx hc, o4' y x c hy hx hc, ← hp.width, ← hp.height, Option.getD_some, Option.getD_some]
  refine (sepFun_relAll (R := Le16) (vs := fun i => (vf.bound i).start) (vn := fun i => (vf.bound i).size)
    (hs := fun i => (hf.bound i).start) (hn := fun i => (hf.bound i).size) (Tv.inside y hy) (Th.inside x hx) hy hx hc
    (fun j q hj hq => ⟨hp.rows h.channels.1 j q hj hq, rowPos_le hb' _ _ _⟩) (fun q hq a => ?_) (fun r r' a => ?_)).1
  · refine ⟨?_, le_trans (vvX86_deep_le cpu fma fused h12 hd vf _ _ _ _) hle⟩
    have hrc := readColumn16_lt hq
    have hw0 : ∀ k, 0 ≤ (rowW vf y).getD k 0 := fun k => by rw [rowW_getD]; exact nv _ ev y k
    unfold vvX86
    dsimp only
    rw [if_pos h12, if_pos h12]
    split_ifs
    · unfold columnVal
      split_ifs
      · have hm := fpFold_mono fma hw0 (L := Spec.taps1 0 (vf.bound y).size)
          (s := colOf vf (rowPos 0 store.buffer (store.strideOf N)) y (readColumn 16 (store.width * N) q))
          (s' := colOf vf (rowPos 0 store'.buffer (store'.strideOf N)) y (readColumn 16 (store.width * N) q))
          (fun t ht => by
            unfold Spec.taps1 at ht
            simp only [List.mem_map, List.mem_range] at ht
            obtain ⟨k, hk, rfl⟩ := ht
            exact (a _ _ (by omega) hrc).mod)
        refine fpVal_mono hd hm.1 hm.2 (fpFold_lt fma sv.1 (fun g => ?_) hw0 ?_)
        · have := taps1_sum g (Nat.zero_le (vf.bound y).size)
          simpa using this
        · simp only [rowW_getD]
          refine le_trans (sum_le_sum fun k _ => le_abs_self _) sv.2.2
      · simp only [toMixedU16_eq]
        exact ceilClamp_mono _ (fpTailAcc_mono fused hw0 fun k hk => (a k _ hk hrc).1)
    · exact v16_mono fused h12 vf (Tv.size_pos y hy) (nv _ ev y) fun k hk => (a k _ hk hq).1
  · refine ⟨?_, le_trans (hvX86_deep_le cpu fma fused h12 hd hf _ _ _ _ _) hle⟩
    have hal := Th.size_le x hx
    have hw1 : ∀ k, k < (hf.bound x).size → (hf.kernel x).getD k 0 = hf.weight x k := fun k hk =>
      FilterWeights.kernel_getD hf x k 0 (by omega)
    have hw0 : ∀ k, 0 ≤ (hf.kernel x).getD k 0 := fun k => by
      by_cases hk : k < hf.alignedSize
      · rw [FilterWeights.kernel_getD hf x k 0 hk]; exact nh _ eh x k
      · rw [List.getD_eq_getElem?_getD, List.getElem?_eq_none]
        · exact le_refl _
        · unfold FilterWeights.kernel
          rw [List.length_take]
          omega
    unfold hvX86
    dsimp only
    rw [if_pos h12, if_pos h12]
    split_ifs with h4
    · unfold fpH
      have hm := fpFold_mono fma hw0 (L := fpTaps (hf.bound x).size)
        (s := fun k => r (((hf.bound x).start + k) * 4 + c)) (s' := fun k => r' (((hf.bound x).start + k) * 4 + c))
        (fun t ht => by
          have := (a t.2 c (fpTaps_lt (Th.size_pos x hx) t ht).2 hc).mod
          rwa [h4.1] at this)
      refine fpVal_mono hd (le_max_right _ _) (max_le_max hm.2 le_rfl) (max_le ?_ (by norm_num))
      refine fpFold_lt fma sh.1 (fun g => fpTaps_sum g (Th.size_pos x hx)) hw0 ?_
      refine le_trans (sum_le_sum fun k hk => ?_) sh.2.2
      rw [hw1 k (by simpa using hk)]
      exact le_abs_self _
    · exact h16_mono fused h12 hf (Th.size_pos x hx) (nh _ eh x) fun k hk => (a k c hk hc).1

/-! ### examples -/

theorem Demo.ubright16 : AcceptedCall16 (2 ^ 64) 4 .bilinear (Demo.ubright 16) (Demo.udst 16) := by
  constructor <;> decide +kernel

example {out out' : Image ℕ}
    (ho : genericResize (2 ^ 64) 4 (formatU16X86 ⟨true, true⟩ true true 4) demoLib .bilinear (Demo.usrc 16) (Demo.udst 16) = some (.ok (), out))
    (ho' : genericResize (2 ^ 64) 4 (formatU16X86 ⟨true, true⟩ true true 4) demoLib .bilinear (Demo.ubright 16) (Demo.udst 16) = some (.ok (), out')) :
    pxD 0 out.buffer 9 4 2 1 3 ≤ pxD 0 out'.buffer 9 4 2 1 3 :=
  C272_deep_monotone (L := demoLib) (by decide) Demo.ucall16 Demo.ubright16 ⟨by decide, by decide⟩ (by decide) (by decide +kernel)
    _ _ _ (Demo.ubrighter 16) ho ho' 2 1 3 (by decide) (by decide) (by decide)

example {out out' : Image ℕ}
    (ho : genericResize (2 ^ 64) 4 (formatU16Neon true 4) demoLib .bilinear (Demo.usrc 16) (Demo.udst 16) = some (.ok (), out))
    (ho' : genericResize (2 ^ 64) 4 (formatU16Neon true 4) demoLib .bilinear (Demo.ubright 16) (Demo.udst 16) = some (.ok (), out')) :
    pxD 0 out.buffer 9 4 2 1 3 ≤ pxD 0 out'.buffer 9 4 2 1 3 :=
  C272_deep_monotone_neon (L := demoLib) (Or.inl (by decide)) Demo.ucall16 Demo.ubright16 (by decide) true
    (Demo.ubrighter 16) ho ho' 2 1 3 (by decide) (by decide) (by decide)

end PicScale
