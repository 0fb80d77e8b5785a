import Verif.Lemmas.BoxRows
import Verif.Props.Geometry

/-!
C251 (`Box` and `Area` at whole-number reductions) and C252 (mirror images).
-/

namespace PicScale

open F32 Spec Finset

/-! ### C251: which pixels are averaged -/

theorem clamp_near {v : ℤ} {μ : ℚ} (h0 : 0 ≤ μ) (h1 : μ ≤ 255) : |(clamp 255 v : ℚ) - μ| ≤ |(v : ℚ) - μ| := by
  have hc : (clamp 255 v : ℤ) = max 0 (min v 255) := by unfold clamp; omega
  have hq : (clamp 255 v : ℚ) = ((max 0 (min v 255) : ℤ) : ℚ) := by rw [← hc]; push_cast; rfl
  rw [hq]
  rcases lt_or_ge v 0 with h | h
  · rw [show max 0 (min v 255) = 0 by omega]
    have : (v : ℚ) ≤ 0 := by exact_mod_cast h.le
    push_cast
    rw [abs_of_nonpos (by linarith), abs_of_nonpos (by linarith)]; linarith
  · rcases le_or_gt v 255 with h' | h'
    · rw [show max 0 (min v 255) = v by omega]
    · rw [show max 0 (min v 255) = 255 by omega]
      have : (255 : ℚ) ≤ v := by exact_mod_cast h'.le
      push_cast
      rw [abs_of_nonneg (by linarith), abs_of_nonneg (by linarith)]; linarith

/-- Sum of `m` bytes with equal weights near `32768 / m`. -/
theorem equal_sum {m : ℕ} {u : ℤ} {w : ℕ → ℤ} {p : ℕ → ℕ} (hm : 1 ≤ m) (hw : ∀ k, k < m → w k = u)
    (hu : |(u : ℚ) - 32768 / m| ≤ 1 / 2 + 1 / 256) (hp : ∀ k, p k ≤ 255) :
    |((wsum m w (fun k => (p k : ℤ)) : ℤ) : ℚ) / 32768 - (∑ k ∈ range m, (p k : ℚ)) / m| ≤ m / 250 ∧
    0 ≤ (∑ k ∈ range m, (p k : ℚ)) / m ∧ (∑ k ∈ range m, (p k : ℚ)) / m ≤ 255 := by
  have hm0 : (1 : ℚ) ≤ m := by exact_mod_cast hm
  have e : ((wsum m w (fun k => (p k : ℤ)) : ℤ) : ℚ) = u * ∑ k ∈ range m, (p k : ℚ) := by
    unfold wsum
    push_cast
    rw [mul_sum]
    refine sum_congr rfl fun k hk => ?_
    rw [hw k (mem_range.1 hk)]
  have s0 : 0 ≤ ∑ k ∈ range m, (p k : ℚ) := sum_nonneg fun k _ => by positivity
  have s1 : ∑ k ∈ range m, (p k : ℚ) ≤ m * 255 := by
    calc ∑ k ∈ range m, (p k : ℚ) ≤ ∑ k ∈ range m, (255 : ℚ) := sum_le_sum fun k _ => by exact_mod_cast hp k
      _ = m * 255 := by simp
  rw [e]
  generalize ∑ k ∈ range m, (p k : ℚ) = S at *
  refine ⟨?_, by positivity, by rw [div_le_iff₀ (by linarith)]; linarith⟩
  have e2 : u * S / 32768 - S / m = (u - 32768 / m) * (S / 32768) := by field_simp
  rw [e2, abs_mul, abs_of_nonneg (show 0 ≤ S / 32768 by positivity)]
  calc |(u : ℚ) - 32768 / m| * (S / 32768) ≤ (1 / 2 + 1 / 256) * (m * 255 / 32768) := by gcongr
    _ ≤ m / 250 := by linarith

theorem mean_round {m : ℕ} {u : ℤ} {w : ℕ → ℤ} {p : ℕ → ℕ} (hm : 1 ≤ m) (hw : ∀ k, k < m → w k = u)
    (hu : |(u : ℚ) - 32768 / m| ≤ 1 / 2 + 1 / 256) (hp : ∀ k, p k ≤ 255) :
    |(fixedRound 255 m w p : ℚ) - (∑ k ∈ range m, (p k : ℚ)) / m| ≤ 1 / 2 + m / 250 := by
  obtain ⟨h, h0, h1⟩ := equal_sum hm hw hu hp
  unfold fixedRound
  refine le_trans (clamp_near h0 h1) ?_
  unfold fixRound
  have f1 := Int.floor_le (((wsum m w (fun k => (p k : ℤ)) : ℤ) : ℚ) / 32768 + 1 / 2)
  have f2 := Int.lt_floor_add_one (((wsum m w (fun k => (p k : ℤ)) : ℤ) : ℚ) / 32768 + 1 / 2)
  rw [abs_le] at h ⊢
  constructor <;> linarith [h.1, h.2]

theorem mean_floor {m : ℕ} {u : ℤ} {w : ℕ → ℤ} {p : ℕ → ℕ} (hm : 1 ≤ m) (hw : ∀ k, k < m → w k = u)
    (hu : |(u : ℚ) - 32768 / m| ≤ 1 / 2 + 1 / 256) (hp : ∀ k, p k ≤ 255) :
    |(fixedFloor 255 m w p : ℚ) - (∑ k ∈ range m, (p k : ℚ)) / m| ≤ 1 + m / 250 := by
  obtain ⟨h, h0, h1⟩ := equal_sum hm hw hu hp
  unfold fixedFloor
  refine le_trans (clamp_near h0 h1) ?_
  unfold fixFloor
  have f1 := Int.floor_le (((wsum m w (fun k => (p k : ℤ)) : ℤ) : ℚ) / 32768)
  have f2 := Int.lt_floor_add_one (((wsum m w (fun k => (p k : ℤ)) : ℤ) : ℚ) / 32768)
  rw [abs_le] at h ⊢
  constructor <;> linarith [h.1, h.2]

/-- Rows of the quantised table. -/
theorem box_table {L : Lib} {r : ResamplingFunction} {inn out n i : ℕ} {q : FilterWeights ℤ} (hr : r = .box ∨ r = .area)
    (h : DyadicRatio inn out n 0) (ho : r = .area → out ≤ 2 ^ 22) (hq : IsTable L r inn out q) (hi : i < out) :
    (q.bound i).start = boxFirst n i ∧ (q.bound i).start + (q.bound i).size = boxLast inn n i ∧
    ∀ k, k < (q.bound i).size → q.weight i k = quantise rnd (rnd (1 / ((q.bound i).size : ℚ))) := by
  have hoi : out ≤ inn := by
    have h1 := h.ratio
    have h2 := h.P_pos
    simp only [pow_zero, mul_one] at h1
    nlinarith
  obtain ⟨v, hrow⟩ := table_general h.inn_pos h.inn_le (fun a => ⟨ho a, h.one_le_scale hoi⟩) hq
  obtain ⟨b, w⟩ := hrow i hi
  obtain ⟨S, E⟩ := box_window (L := L) hr h hi
  have hle := (window_ok (f := filterOf rnd L r) RoundOK.rnd (filterOf_ok L r) h.inn_pos h.inn_le i (out := out)).1
  refine ⟨by rw [b]; exact S, ?_, fun k hk => ?_⟩
  · rw [b]
    show wStart rnd (filterOf rnd L r) inn out i + (wEnd rnd (filterOf rnd L r) inn out i - wStart rnd (filterOf rnd L r) inn out i) = _
    rw [← E]; omega
  · have hr' := box_row (L := L) (inn := inn) (out := out) (i := i) hr (by
      rw [E]; unfold boxLast
      have := h.inn_le
      omega)
    rw [w k hk, hr', b, List.getD_eq_getElem?_getD, List.getElem?_replicate, if_pos (by rw [← b]; exact hk)]
    rfl

theorem box_size {inn out n i : ℕ} (h : DyadicRatio inn out n 0) (hn : 2 ≤ n) (hi : i < out) :
    2 ≤ boxLast inn n i - boxFirst n i ∧ boxLast inn n i ≤ 2 ^ 24 := by
  have h1 := h.ratio
  simp only [pow_zero, mul_one] at h1
  have h2 := h.inn_le
  have h3 : i * n + n ≤ inn := by rw [h1]; nlinarith
  unfold boxLast boxFirst
  have e : 2 * i * n = 2 * (i * n) := by ring
  rw [e]
  constructor
  · split_ifs with h0
    · subst h0; simp only [zero_mul, mul_zero, Nat.zero_sub, Nat.zero_div]; omega
    · omega
  · omega

/-- **C251, columns.** With `Box` or `Area`, dividing the width by `n ≥ 2` (height kept) averages the `2 n` source
pixels around each block of `n` (fewer at the edges), within `1/2` plus `1/250` per pixel averaged. -/
theorem C251_columns_partial {W N n : ℕ} {L : Lib} {r : ResamplingFunction} {store into : Image ℕ} (hr : r = .box ∨ r = .area)
    (h : AcceptedCall W N r store into) (hb : ∀ v ∈ store.buffer, v ≤ 255) (hn : 2 ≤ n)
    (hd : DyadicRatio store.width into.width n 0) (hh : store.height = into.height) :
    ∃ out, genericResize W N (formatU8 N) L r store into = some (.ok (), out) ∧
      ∀ y x c, y < into.height → x < into.width → c < N →
        ∃ v : ℕ, sample out.buffer (into.strideOf N) N y x c = some v ∧
          |(v : ℚ) - meanOf (fun k => pxD 0 store.buffer (store.strideOf N) N y k c) (boxFirst n x) (boxLast store.width n x)| ≤
            1 / 2 + (boxLast store.width n x - boxFirst n x : ℕ) / 250 := by
  obtain ⟨qv, qh, out, tv, th, o1, o2, o3, o4⟩ := C115_resize_u8 (L := L) (by rcases hr with rfl | rfl <;> exact Or.inl (by decide)) h hb
  refine ⟨out, o1, fun y x c hy hx hc => ⟨_, o4 y x c hy hx hc, ?_⟩⟩
  have hne : store.width ≠ into.width := by
    have := hd.ratio
    have := hd.out_pos
    simp only [pow_zero, mul_one] at *
    nlinarith
  unfold separable
  simp only
  rw [if_neg hne]
  simp only [if_pos hh]
  obtain ⟨s, e, w⟩ := box_table hr hd (fun a => (h.area a).1) th hx
  obtain ⟨z1, z2⟩ := box_size hd hn hx
  have hsz : (qh.bound x).size = boxLast store.width n x - boxFirst n x := by omega
  unfold meanOf
  have key := mean_round (m := (qh.bound x).size) (w := fun k => qh.weight x k)
    (p := fun k => pxD 0 store.buffer (store.strideOf N) N y ((qh.bound x).start + k) c) (by omega) w
    (q_equal (by omega) (by omega)) (fun k => pxD_byte hb N c y _)
  rw [hsz, s] at key
  rw [hsz, s]
  exact key

/-- **C251, rows.** Likewise for the height, within `1` plus `1/250` per pixel averaged. -/
theorem C251_rows_partial {W N n : ℕ} {L : Lib} {r : ResamplingFunction} {store into : Image ℕ} (hr : r = .box ∨ r = .area)
    (h : AcceptedCall W N r store into) (hb : ∀ v ∈ store.buffer, v ≤ 255) (hn : 2 ≤ n)
    (hd : DyadicRatio store.height into.height n 0) (hh : store.width = into.width) :
    ∃ out, genericResize W N (formatU8 N) L r store into = some (.ok (), out) ∧
      ∀ y x c, y < into.height → x < into.width → c < N →
        ∃ v : ℕ, sample out.buffer (into.strideOf N) N y x c = some v ∧
          |(v : ℚ) - meanOf (fun k => pxD 0 store.buffer (store.strideOf N) N k x c) (boxFirst n y) (boxLast store.height n y)| ≤
            1 + (boxLast store.height n y - boxFirst n y : ℕ) / 250 := by
  obtain ⟨qv, qh, out, tv, th, o1, o2, o3, o4⟩ := C115_resize_u8 (L := L) (by rcases hr with rfl | rfl <;> exact Or.inl (by decide)) h hb
  refine ⟨out, o1, fun y x c hy hx hc => ⟨_, o4 y x c hy hx hc, ?_⟩⟩
  have hne : store.height ≠ into.height := by
    have := hd.ratio
    have := hd.out_pos
    simp only [pow_zero, mul_one] at *
    nlinarith
  unfold separable
  simp only
  rw [if_pos hh, if_neg hne]
  obtain ⟨s, e, w⟩ := box_table hr hd (fun a => (h.area a).2) tv hy
  obtain ⟨z1, z2⟩ := box_size hd hn hy
  have hsz : (qv.bound y).size = boxLast store.height n y - boxFirst n y := by omega
  unfold meanOf
  have key := mean_floor (m := (qv.bound y).size) (w := fun k => qv.weight y k)
    (p := fun k => pxD 0 store.buffer (store.strideOf N) N ((qv.bound y).start + k) x c) (by omega) w
    (q_equal (by omega) (by omega)) (fun k => pxD_byte hb N c _ x)
  rw [hsz, s] at key
  rw [hsz, s]
  exact key

/-- Four pixels to two, a row and a column. -/
def Demo.row4 : Image ℕ := ⟨[0, 0, 100, 100], 1, 4, 1, 4, 8⟩
def Demo.row2 : Image ℕ := ⟨[0, 0], 1, 2, 1, 2, 8⟩
def Demo.col4 : Image ℕ := ⟨[0, 0, 100, 100], 1, 1, 4, 1, 8⟩
def Demo.col2 : Image ℕ := ⟨[0, 0], 1, 1, 2, 1, 8⟩

example := C251_columns_partial (W := 2 ^ 64) (N := 1) (n := 2) (L := demoLib) (store := Demo.row4) (into := Demo.row2) (Or.inl rfl)
  (by constructor <;> decide) (by decide) (by decide) ⟨by decide, by decide, by decide, by decide⟩ rfl
example := C251_rows_partial (W := 2 ^ 64) (N := 1) (n := 2) (L := demoLib) (store := Demo.col4) (into := Demo.col2) (Or.inr rfl)
  (by constructor <;> decide) (by decide) (by decide) ⟨by decide, by decide, by decide, by decide⟩ rfl

/-- **C251 fails**: neither `Box` nor `Area` computes the mean of each block. Halving `0 0 100 100` gives `33 67`, the
means of the two blocks are `0 100`. -/
theorem C251_violated (L : Lib) {r : ResamplingFunction} (hr : r = .box ∨ r = .area) :
    ∃ out, genericResize (2 ^ 64) 1 (formatU8 1) L r Demo.row4 Demo.row2 = some (.ok (), out) ∧ out.buffer = [33, 67] ∧
      blockMean (fun k => pxD 0 Demo.row4.buffer 4 1 0 k 0) 2 0 = 0 ∧
      blockMean (fun k => pxD 0 Demo.row4.buffer 4 1 0 k 0) 2 1 = 100 := by
  have e : genericResize (2 ^ 64) 1 (formatU8 1) L r Demo.row4 Demo.row2 =
      genericResize (2 ^ 64) 1 (formatU8 1) demoLib r Demo.row4 Demo.row2 := by rcases hr with rfl | rfl <;> rfl
  rw [e]
  have hd : (genericResize (2 ^ 64) 1 (formatU8 1) demoLib r Demo.row4 Demo.row2).map (fun o => (o.1, o.2.buffer)) =
      some (.ok (), [33, 67]) := by rcases hr with rfl | rfl <;> decide +kernel
  obtain ⟨⟨a, out⟩, e1, e2⟩ := Option.map_eq_some_iff.1 hd
  simp only [Prod.mk.injEq] at e2
  obtain ⟨rfl, e3⟩ := e2
  exact ⟨out, e1, e3, by decide, by decide⟩

/-! ### C252: mirror images -/

/-- A separable resize of a picture mirrored left to right. -/
theorem separable_mirror_cols {S : Type} {sw sh dw dh : ℕ} {vs hs : ℕ → ℕ} {vv hv : ℕ → (ℕ → S) → S} {p p' : ℕ → ℕ → S}
    {y x nv : ℕ} (hy : y < dh) (hx : x < dw) (hnv : sh ≠ dh → vs y + nv ≤ sh)
    (hvv : ∀ a b, (∀ k, k < nv → a k = b k) → vv y a = vv y b)
    (hp : ∀ y x, y < sh → x < sw → p' y x = p y (sw - 1 - x))
    (h2 : sw ≠ dw → ∀ f g : ℕ → S, (∀ j, j < sw → f j = g (sw - 1 - j)) →
      hv x (fun k => f (hs x + k)) = hv (dw - 1 - x) (fun k => g (hs (dw - 1 - x) + k))) :
    separable sw sh dw dh vs vv hs hv p' y x = separable sw sh dw dh vs vv hs hv p y (dw - 1 - x) := by
  have hcol : ∀ u, u < sw → (if sh = dh then p' y u else vv y (fun k => p' (vs y + k) u)) =
      (if sh = dh then p y (sw - 1 - u) else vv y (fun k => p (vs y + k) (sw - 1 - u))) := by
    intro u hu
    by_cases hh : sh = dh
    · rw [if_pos hh, if_pos hh, hp y u (by omega) hu]
    · rw [if_neg hh, if_neg hh]
      exact hvv _ _ fun k hk => hp _ u (by have := hnv hh; omega) hu
  unfold separable
  simp only
  by_cases hw : sw = dw
  · rw [if_pos hw, if_pos hw, hcol x (by omega), hw]
  · rw [if_neg hw, if_neg hw]
    exact h2 hw (fun u => if sh = dh then p' y u else vv y (fun k => p' (vs y + k) u))
      (fun u => if sh = dh then p y u else vv y (fun k => p (vs y + k) u)) hcol

/-- A separable resize of a picture mirrored top to bottom. -/
theorem separable_mirror_rows {S : Type} {sw sh dw dh : ℕ} {vs hs : ℕ → ℕ} {vv hv : ℕ → (ℕ → S) → S} {p p' : ℕ → ℕ → S}
    {y x nh : ℕ} (hy : y < dh) (hx : x < dw) (hnh : sw ≠ dw → hs x + nh ≤ sw)
    (hhv : ∀ a b, (∀ k, k < nh → a k = b k) → hv x a = hv x b)
    (hp : ∀ y x, y < sh → x < sw → p' y x = p (sh - 1 - y) x)
    (h2 : sh ≠ dh → ∀ f g : ℕ → S, (∀ j, j < sh → f j = g (sh - 1 - j)) →
      vv y (fun k => f (vs y + k)) = vv (dh - 1 - y) (fun k => g (vs (dh - 1 - y) + k))) :
    separable sw sh dw dh vs vv hs hv p' y x = separable sw sh dw dh vs vv hs hv p (dh - 1 - y) x := by
  have hcol : ∀ u, u < sw → (if sh = dh then p' y u else vv y (fun k => p' (vs y + k) u)) =
      (if sh = dh then p (dh - 1 - y) u else vv (dh - 1 - y) (fun k => p (vs (dh - 1 - y) + k) u)) := by
    intro u hu
    by_cases hh : sh = dh
    · rw [if_pos hh, if_pos hh, hp y u (by omega) hu, hh]
    · rw [if_neg hh, if_neg hh]
      exact h2 hh (fun j => p' j u) (fun j => p j u) fun j hj => hp j u hj hu
  unfold separable
  simp only
  by_cases hw : sw = dw
  · rw [if_pos hw, if_pos hw, hcol x (by omega)]
  · rw [if_neg hw, if_neg hw]
    exact hhv _ _ fun k hk => hcol _ (by have := hnh hw; omega)

/-- The windows of even reductions are mirror images of each other. -/
theorem box_mirror {inn out m i : ℕ} (h : inn = out * (2 * m)) (hm : 1 ≤ m) (hi : i < out) :
    boxFirst (2 * m) (out - 1 - i) = inn - boxLast inn (2 * m) i ∧ boxLast inn (2 * m) (out - 1 - i) = inn - boxFirst (2 * m) i ∧
      boxFirst (2 * m) i ≤ boxLast inn (2 * m) i ∧ boxLast inn (2 * m) i ≤ inn := by
  have first : ∀ j, boxFirst (2 * m) j = 2 * (j * m) - m := by
    intro j; unfold boxFirst
    have : 2 * j * (2 * m) = 2 * (2 * (j * m)) := by ring
    omega
  have last : ∀ j, boxLast inn (2 * m) j = min (2 * (j * m) + 3 * m) inn := by
    intro j; unfold boxLast
    rw [first]
    split_ifs with h0
    · subst h0; rw [zero_mul]; omega
    · have : m ≤ j * m := Nat.le_mul_of_pos_left _ (by omega)
      omega
  have hj : (out - 1 - i) * m + m + i * m = out * m := by
    have : out = (out - 1 - i) + 1 + i := by omega
    conv_rhs => rw [this]
    ring
  have hinn : inn = 2 * (out * m) := by rw [h]; ring
  rw [first, first, last, last]
  refine ⟨?_, ?_, ?_, ?_⟩ <;> omega

/-- Equal weights do not see the order of the pixels. -/
theorem wsum_reverse {sz a a' inn : ℕ} {u : ℤ} {w w' : ℕ → ℤ} {f g : ℕ → ℕ} (hw : ∀ k, k < sz → w k = u)
    (hw' : ∀ k, k < sz → w' k = u) (ha : a' + (a + sz) = inn) (hfg : ∀ j, j < inn → f j = g (inn - 1 - j)) :
    wsum sz w (fun k => ((f (a + k) : ℕ) : ℤ)) = wsum sz w' (fun k => ((g (a' + k) : ℕ) : ℤ)) := by
  unfold wsum
  rw [← sum_range_reflect]
  refine sum_congr rfl fun k hk => ?_
  rw [mem_range] at hk
  rw [hw _ (by omega), hw' k hk]
  simp only
  rw [hfg _ (by omega), show inn - 1 - (a + (sz - 1 - k)) = a' + k by omega]

/-- **C252, columns, even reductions with `Box` and `Area`.** Mirroring the source left to right mirrors the result,
exactly. The height may change too, in any way. -/
theorem C252_columns_partial {W N m : ℕ} {L : Lib} {r : ResamplingFunction} {store store' into into' : Image ℕ}
    (hr : r = .box ∨ r = .area) (h : AcceptedCall W N r store into) (h' : AcceptedCall W N r store' into')
    (hb : ∀ v ∈ store.buffer, v ≤ 255) (hb' : ∀ v ∈ store'.buffer, v ≤ 255)
    (hs : SameShape store' store) (hi : SameShape into' into) (hd : DyadicRatio store.width into.width (2 * m) 0)
    (hmirror : ∀ y x c, y < store.height → x < store.width → c < N →
      sample store'.buffer (store.strideOf N) N y x c = sample store.buffer (store.strideOf N) N y (store.width - 1 - x) c) :
    ∃ out out', genericResize W N (formatU8 N) L r store into = some (.ok (), out) ∧
      genericResize W N (formatU8 N) L r store' into' = some (.ok (), out') ∧
      ∀ y x c, y < into.height → x < into.width → c < N →
        sample out'.buffer (into.strideOf N) N y x c = sample out.buffer (into.strideOf N) N y (into.width - 1 - x) c := by
  have hav : Averages L r := Or.inl (by rcases hr with rfl | rfl <;> decide)
  obtain ⟨qv, qh, out, out', tv, th, vv, vh, o1, o1', o⟩ := two_resizes (L := L) (h.u8 hav hb) (h'.u8 hav hb') hs hi
  refine ⟨out, out', o1, o1', fun y x c hy hx hc => ?_⟩
  have e1 := o true y x c hy hx hc
  have e2 := o false y (into.width - 1 - x) c hy (by omega) hc
  simp only [if_true, Bool.false_eq_true, if_false] at e1 e2
  rw [e1, e2]
  congr 1
  refine separable_mirror_cols (nv := (qv.bound y).size) hy hx (fun _ => vv.inside y hy)
    (fun a b hab => fixedFloor_congr (fun _ _ => rfl) hab) (fun y x hy hx => ?_) (fun _ f g hfg => ?_)
  · unfold pxD; rw [hmirror y x c hy hx hc]
  · obtain ⟨s1, l1, w1⟩ := box_table hr hd (fun a => (h.area a).1) th hx
    obtain ⟨s2, l2, w2⟩ := box_table hr hd (fun a => (h.area a).1) th (i := into.width - 1 - x) (by omega)
    have hinn : store.width = into.width * (2 * m) := by have := hd.ratio; simpa using this
    obtain ⟨m1, m2, m3, m4⟩ := box_mirror hinn (by have := hd.P_pos; omega) hx
    have hsz : (qh.bound (into.width - 1 - x)).size = (qh.bound x).size := by omega
    rw [hsz] at w2 ⊢
    unfold fixedRound
    congr 2
    exact wsum_reverse w1 w2 (by omega) hfg

/-- **C252, rows, even reductions with `Box` and `Area`.** -/
theorem C252_rows_partial {W N m : ℕ} {L : Lib} {r : ResamplingFunction} {store store' into into' : Image ℕ}
    (hr : r = .box ∨ r = .area) (h : AcceptedCall W N r store into) (h' : AcceptedCall W N r store' into')
    (hb : ∀ v ∈ store.buffer, v ≤ 255) (hb' : ∀ v ∈ store'.buffer, v ≤ 255)
    (hs : SameShape store' store) (hi : SameShape into' into) (hd : DyadicRatio store.height into.height (2 * m) 0)
    (hmirror : ∀ y x c, y < store.height → x < store.width → c < N →
      sample store'.buffer (store.strideOf N) N y x c = sample store.buffer (store.strideOf N) N (store.height - 1 - y) x c) :
    ∃ out out', genericResize W N (formatU8 N) L r store into = some (.ok (), out) ∧
      genericResize W N (formatU8 N) L r store' into' = some (.ok (), out') ∧
      ∀ y x c, y < into.height → x < into.width → c < N →
        sample out'.buffer (into.strideOf N) N y x c = sample out.buffer (into.strideOf N) N (into.height - 1 - y) x c := by
  have hav : Averages L r := Or.inl (by rcases hr with rfl | rfl <;> decide)
  obtain ⟨qv, qh, out, out', tv, th, vv, vh, o1, o1', o⟩ := two_resizes (L := L) (h.u8 hav hb) (h'.u8 hav hb') hs hi
  refine ⟨out, out', o1, o1', fun y x c hy hx hc => ?_⟩
  have e1 := o true y x c hy hx hc
  have e2 := o false (into.height - 1 - y) x c (by omega) hx hc
  simp only [if_true, Bool.false_eq_true, if_false] at e1 e2
  rw [e1, e2]
  congr 1
  refine separable_mirror_rows (nh := (qh.bound x).size) hy hx (fun _ => vh.inside x hx)
    (fun a b hab => fixedRound_congr (fun _ _ => rfl) hab) (fun y x hy hx => ?_) (fun _ f g hfg => ?_)
  · unfold pxD; rw [hmirror y x c hy hx hc]
  · obtain ⟨s1, l1, w1⟩ := box_table hr hd (fun a => (h.area a).2) tv hy
    obtain ⟨s2, l2, w2⟩ := box_table hr hd (fun a => (h.area a).2) tv (i := into.height - 1 - y) (by omega)
    have hinn : store.height = into.height * (2 * m) := by have := hd.ratio; simpa using this
    obtain ⟨m1, m2, m3, m4⟩ := box_mirror hinn (by have := hd.P_pos; omega) hy
    have hsz : (qv.bound (into.height - 1 - y)).size = (qv.bound y).size := by omega
    rw [hsz] at w2 ⊢
    unfold fixedFloor
    congr 2
    exact wsum_reverse w1 w2 (by omega) hfg

/-- Eight pixels and their mirror image. -/
def Demo.row8 : Image ℕ := ⟨[0, 9, 100, 255, 3, 77, 18, 50], 1, 8, 1, 8, 8⟩
def Demo.row8m : Image ℕ := ⟨[50, 18, 77, 3, 255, 100, 9, 0], 1, 8, 1, 8, 8⟩

example := C252_columns_partial (W := 2 ^ 64) (N := 1) (m := 2) (L := demoLib) (store := Demo.row8) (store' := Demo.row8m)
  (into := Demo.row2) (into' := Demo.row2) (Or.inr rfl)
  (by constructor <;> decide) (by constructor <;> decide) (by decide) (by decide) (by unfold SameShape; decide)
  (by unfold SameShape; decide) ⟨by decide, by decide, by decide, by decide⟩
  (by
    have : ∀ y : Fin 1, ∀ x : Fin 8, ∀ c : Fin 1, sample Demo.row8m.buffer (Demo.row8.strideOf 1) 1 y x c =
      sample Demo.row8.buffer (Demo.row8.strideOf 1) 1 y (8 - 1 - x) c := by decide
    intro y x c hy hx hc
    exact this ⟨y, hy⟩ ⟨x, hx⟩ ⟨c, hc⟩)

/-- The same as a column. -/
def Demo.col8 : Image ℕ := ⟨[0, 9, 100, 255, 3, 77, 18, 50], 1, 1, 8, 1, 8⟩
def Demo.col8m : Image ℕ := ⟨[50, 18, 77, 3, 255, 100, 9, 0], 1, 1, 8, 1, 8⟩

example := C252_rows_partial (W := 2 ^ 64) (N := 1) (m := 2) (L := demoLib) (store := Demo.col8) (store' := Demo.col8m)
  (into := Demo.col2) (into' := Demo.col2) (Or.inl rfl)
  (by constructor <;> decide) (by constructor <;> decide) (by decide) (by decide) (by unfold SameShape; decide)
  (by unfold SameShape; decide) ⟨by decide, by decide, by decide, by decide⟩
  (by
    have : ∀ y : Fin 8, ∀ x : Fin 1, ∀ c : Fin 1, sample Demo.col8m.buffer (Demo.col8.strideOf 1) 1 y x c =
      sample Demo.col8.buffer (Demo.col8.strideOf 1) 1 (8 - 1 - y) x c := by decide
    intro y x c hy hx hc
    exact this ⟨y, hy⟩ ⟨x, hx⟩ ⟨c, hc⟩)

/-- Three pixels, and their mirror image. -/
def Demo.row3m : Image ℕ := ⟨[100, 0, 0], 1, 3, 1, 3, 8⟩

/-- Run a resize that does not depend on the mathematical library and compare the buffer. -/
theorem Demo.run_buffer {r : ResamplingFunction} {store into : Image ℕ} {b : List ℕ}
    (h : (genericResize (2 ^ 64) 1 (formatU8 1) demoLib r store into).map (fun o => (o.1, o.2.buffer)) = some (.ok (), b)) :
    ∃ out, genericResize (2 ^ 64) 1 (formatU8 1) demoLib r store into = some (.ok (), out) ∧ out.buffer = b := by
  obtain ⟨⟨a, out⟩, e1, e2⟩ := Option.map_eq_some_iff.1 h
  simp only [Prod.mk.injEq] at e2
  obtain ⟨rfl, e3⟩ := e2
  exact ⟨out, e1, e3⟩

/-- **C252 fails for enlargements**: Bilinear doubles `0 0 100` to `0 0 0 0 75 100` but its mirror image `100 0 0` to
`100 75 25 0 0 0`. -/
theorem C252_bilinear_violated (L : Lib) :
    ∃ out out', genericResize (2 ^ 64) 1 (formatU8 1) L .bilinear Demo.row3 Demo.row6 = some (.ok (), out) ∧
      genericResize (2 ^ 64) 1 (formatU8 1) L .bilinear Demo.row3m Demo.row6 = some (.ok (), out') ∧
      out.buffer = [0, 0, 0, 0, 75, 100] ∧ out'.buffer = [100, 75, 25, 0, 0, 0] := by
  have e : ∀ s, genericResize (2 ^ 64) 1 (formatU8 1) L .bilinear s Demo.row6 =
      genericResize (2 ^ 64) 1 (formatU8 1) demoLib .bilinear s Demo.row6 := fun _ => rfl
  rw [e, e]
  obtain ⟨out, a1, a2⟩ := Demo.run_buffer (r := .bilinear) (store := Demo.row3) (into := Demo.row6) (b := [0, 0, 0, 0, 75, 100])
    (by decide +kernel)
  obtain ⟨out', b1, b2⟩ := Demo.run_buffer (r := .bilinear) (store := Demo.row3m) (into := Demo.row6) (b := [100, 75, 25, 0, 0, 0])
    (by decide +kernel)
  exact ⟨out, out', a1, b1, a2, b2⟩

end PicScale
