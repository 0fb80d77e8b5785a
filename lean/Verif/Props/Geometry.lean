import Verif.Lemmas.BilinearRows
import Verif.Props.WeightBounds

/-!
Property theorems C248 – C253: where a resize takes its pixels from. Shifts, mirror images, the extent of the
windows, what `Bilinear` enlargements and `Box`/`Area` reductions compute.
-/

namespace PicScale

open Finset F32 Spec

/-! ### The quantised table, row by row -/

/-- Which computation `generateWeights` uses: everything except enlargements with `Area`. -/
theorem table_general {L : Lib} {r : ResamplingFunction} {inn out : ℕ} {q : FilterWeights ℤ} (h1 : 1 ≤ inn)
    (h2 : inn ≤ 2 ^ 23) (ha : r = .area → out ≤ 2 ^ 22 ∧ 1 ≤ wScale rnd inn out) (hq : IsTable L r inn out q) :
    ValidTable q inn out ∧ ∀ i, i < out → q.bound i = genBound rnd (filterOf rnd L r) inn out i ∧
      ∀ k, k < (q.bound i).size → q.weight i k = quantise rnd ((genRow rnd (filterOf rnd L r) inn out i).getD k 0) := by
  obtain ⟨fw, e, rfl⟩ := hq
  obtain ⟨fw', e', v, t⟩ := generateWeights_spec RoundOK.rnd (filterOf_ok L r) (out := out) h1 h2
    (fun hA i hi => areaSx_rnd h1 h2 (ha (filterOf_area L r hA)).1 hi)
  unfold tableOf at e
  rw [e'] at e
  obtain rfl := Option.some.inj e
  rcases t with ⟨_, t⟩ | ⟨⟨a1, a2⟩, _⟩
  · have s : PlainShape fw' out := ⟨by rw [t.kernel, t.aligned], t.distinct⟩
    refine ⟨s.q_valid v, fun i hi => ⟨t.bound hi, fun k hk => ?_⟩⟩
    have hk' : k < (fw'.bound i).size := hk
    have := v.size_le i hi
    rw [t.aligned] at this
    rw [s.q_weight RoundOK.rnd v, t.weight hi (by omega)]
  · exact absurd (ha (filterOf_area L r a1)).2 (by push Not; exact a2)

theorem Spec.DyadicRatio.one_le_scale {inn out P t : ℕ} (h : DyadicRatio inn out P t) (ho : out ≤ inn) :
    1 ≤ wScale rnd inn out := by
  rw [h.wScale_eq, le_div_iff₀ (by positivity), one_mul]
  have h1 := h.ratio
  have : 2 ^ t ≤ P := by
    by_contra hc
    have h2 := h.out_pos
    have : out * P < inn * 2 ^ t := by
      calc out * P < out * 2 ^ t := by nlinarith
        _ ≤ inn * 2 ^ t := Nat.mul_le_mul_right _ ho
    omega
  exact_mod_cast this

/-- Moving by a whole period, quantised. -/
theorem table_shift {L : Lib} {r : ResamplingFunction} {inn out P t i m : ℕ} {q : FilterWeights ℤ}
    (h : DyadicRatio inn out P t) (ha : r = .area → out ≤ 2 ^ 22 ∧ out ≤ inn) (hq : IsTable L r inn out q)
    (hi : i + 2 ^ t * m < out) (hb : Inner inn (q.bound i)) (hb' : Inner inn (q.bound (i + 2 ^ t * m))) :
    (q.bound (i + 2 ^ t * m)).start = (q.bound i).start + P * m ∧
      (q.bound (i + 2 ^ t * m)).size = (q.bound i).size ∧
      ∀ k, k < (q.bound i).size → q.weight (i + 2 ^ t * m) k = q.weight i k := by
  have hi0 : i < out := by omega
  obtain ⟨v, hrow⟩ := table_general h.inn_pos h.inn_le (fun a => ⟨(ha a).1, h.one_le_scale (ha a).2⟩) hq
  obtain ⟨b0, w0⟩ := hrow i hi0
  obtain ⟨b1, w1⟩ := hrow _ hi
  rw [b0] at hb
  rw [b1] at hb'
  obtain ⟨g1, g2⟩ := genRow_shift h hi hb hb'
    (fun j _ => le_of_lt (window_ok RoundOK.rnd (filterOf_ok L r) h.inn_pos h.inn_le j).1)
  rw [g1] at b1
  refine ⟨by rw [b1, b0], by rw [b1, b0], fun k hk => ?_⟩
  rw [w1 k (by rw [b1, ← b0]; exact hk), w0 k hk, g2]

/-! ### C248: shifting the source -/

/-- A separable resize of a picture moved by `D` columns. -/
theorem separable_move_cols {S : Type} {sw sh dw dh : ℕ} {vs hs : ℕ → ℕ} {vv hv : ℕ → (ℕ → S) → S} {p p' : ℕ → ℕ → S}
    {y x x' D nv nh : ℕ} (hy : y < dh) (hnv : sh ≠ dh → vs y + nv ≤ sh)
    (hvv : ∀ a b, (∀ k, k < nv → a k = b k) → vv y a = vv y b)
    (hp : ∀ y x, y < sh → x + D < sw → p' y (x + D) = p y x)
    (h1 : sw = dw → x' = x + D ∧ x' < sw)
    (h2 : sw ≠ dw → hs x' = hs x + D ∧ hs x + nh + D ≤ sw ∧ ∀ a b, (∀ k, k < nh → a k = b k) → hv x' a = hv x b) :
    separable sw sh dw dh vs vv hs hv p' y x' = separable sw sh dw dh vs vv hs hv p y x := by
  have hcol : ∀ u, u + D < sw → (if sh = dh then p' y (u + D) else vv y (fun k => p' (vs y + k) (u + D))) =
      (if sh = dh then p y u else vv y (fun k => p (vs y + k) u)) := by
    intro u hu
    by_cases hh : sh = dh
    · rw [if_pos hh, if_pos hh, hp y u (by omega) hu]
    · rw [if_neg hh, if_neg hh]
      exact hvv _ _ fun k hk => hp _ u (by have := hnv hh; omega) hu
  unfold separable
  simp only
  by_cases hw : sw = dw
  · obtain ⟨e, e2⟩ := h1 hw
    rw [if_pos hw, if_pos hw, e]
    exact hcol x (by omega)
  · obtain ⟨e, e2, e3⟩ := h2 hw
    rw [if_neg hw, if_neg hw]
    refine e3 _ _ fun k hk => ?_
    have := hcol (hs x + k) (by omega)
    rw [e, show hs x + D + k = hs x + k + D by omega]
    exact this

/-- A separable resize of a picture moved by `D` rows. -/
theorem separable_move_rows {S : Type} {sw sh dw dh : ℕ} {vs hs : ℕ → ℕ} {vv hv : ℕ → (ℕ → S) → S} {p p' : ℕ → ℕ → S}
    {y y' x D nv nh : ℕ} (hx : x < dw) (hnh : sw ≠ dw → hs x + nh ≤ sw)
    (hhv : ∀ a b, (∀ k, k < nh → a k = b k) → hv x a = hv x b)
    (hp : ∀ y x, y + D < sh → x < sw → p' (y + D) x = p y x)
    (h1 : sh = dh → y' = y + D ∧ y' < sh)
    (h2 : sh ≠ dh → vs y' = vs y + D ∧ vs y + nv + D ≤ sh ∧ ∀ a b, (∀ k, k < nv → a k = b k) → vv y' a = vv y b) :
    separable sw sh dw dh vs vv hs hv p' y' x = separable sw sh dw dh vs vv hs hv p y x := by
  have hcol : ∀ u, u < sw → (if sh = dh then p' y' u else vv y' (fun k => p' (vs y' + k) u)) =
      (if sh = dh then p y u else vv y (fun k => p (vs y + k) u)) := by
    intro u hu
    by_cases hh : sh = dh
    · obtain ⟨e, e2⟩ := h1 hh
      rw [if_pos hh, if_pos hh, e, hp y u (by omega) hu]
    · obtain ⟨e, e2, e3⟩ := h2 hh
      rw [if_neg hh, if_neg hh]
      refine e3 _ _ fun k hk => ?_
      rw [e, show vs y + D + k = vs y + k + D by omega]
      exact hp _ u (by omega) hu
  unfold separable
  simp only
  by_cases hw : sw = dw
  · rw [if_pos hw, if_pos hw]; exact hcol x (by omega)
  · rw [if_neg hw, if_neg hw]
    exact hhv _ _ fun k hk => hcol _ (by have := hnh hw; omega)

theorem Spec.DyadicRatio.same {n P t : ℕ} (h : DyadicRatio n n P t) : P = 2 ^ t :=
  (Nat.eq_of_mul_eq_mul_left (by have := h.inn_pos; omega) h.ratio).symm

/-- Two resizes with the same shapes and filter, sample by sample, with the same tables. -/
theorem two_resizes {W N : ℕ} {L : Lib} {r : ResamplingFunction} {store store' into into' : Image ℕ}
    (h : Accepted W N L r store into) (h' : Accepted W N L r store' into')
    (hs : SameShape store' store) (hi : SameShape into' into) :
    ∃ qv qh out out', IsTable L r store.height into.height qv ∧ IsTable L r store.width into.width qh ∧
      ValidTable qv store.height into.height ∧ ValidTable qh store.width into.width ∧
      genericResize W N (formatU8 N) L r store into = some (.ok (), out) ∧
      genericResize W N (formatU8 N) L r store' into' = some (.ok (), out') ∧
      ∀ (b : Bool) y x c, y < into.height → x < into.width → c < N →
        sample (if b then out' else out).buffer (into.strideOf N) N y x c = some
          (separable store.width store.height into.width into.height
            (fun i => (qv.bound i).start)
            (fun i p => fixedFloor 255 (qv.bound i).size (fun k => qv.weight i k) p)
            (fun i => (qh.bound i).start)
            (fun i p => fixedRound 255 (qh.bound i).size (fun k => qh.weight i k) p)
            (fun y x => pxD 0 (if b then store' else store).buffer (store.strideOf N) N y x c) y x) := by
  obtain ⟨qv, qh, out, tv, th, vv, vh, o1, o2, o3, o4⟩ := C21_separable h
  obtain ⟨qv', qh', out', tv', th', _, _, o1', o2', o3', o4'⟩ := C21_separable h'
  obtain ⟨s1, s2, s3, s4, s5, s6⟩ := hs
  obtain ⟨i1, i2, i3, i4, i5, i6⟩ := hi
  have es : store'.strideOf N = store.strideOf N := by unfold Image.strideOf; rw [s1, s3]
  have ei : into'.strideOf N = into.strideOf N := by unfold Image.strideOf; rw [i1, i3]
  rw [s2, i2] at tv'
  rw [s1, i1] at th'
  obtain ⟨fv, e1, rfl⟩ := tv
  obtain ⟨fv', e1', rfl⟩ := tv'
  rw [e1] at e1'
  obtain rfl := Option.some.inj e1'
  obtain ⟨fh, e2, rfl⟩ := th
  obtain ⟨fh', e2', rfl⟩ := th'
  rw [e2] at e2'
  obtain rfl := Option.some.inj e2'
  refine ⟨_, _, out, out', ⟨fv, e1, rfl⟩, ⟨fh, e2, rfl⟩, vv, vh, o1, o1', fun b y x c hy hx hc => ?_⟩
  cases b with
  | false => exact o4 y x c hy hx hc
  | true =>
    have := o4' y x c (by rw [i2]; exact hy) (by rw [i1]; exact hx) hc
    rw [ei, es, s1, s2, i1, i2] at this
    exact this

/-- **C248, columns.** When the ratio of the widths is `P / 2^t`, moving the content of the source to the right by
`P m` pixels moves the content of the result by `2^t m` pixels, exactly, wherever the windows do not touch the
left and right edges — every filter except enlargements with `Area`, all of it computed in binary32 and fixed
point. -/
theorem C248_shift_columns {W N : ℕ} {L : Lib} {r : ResamplingFunction} {store store' into into' : Image ℕ}
    {P t m : ℕ} (h : Accepted W N L r store into) (h' : Accepted W N L r store' into')
    (hs : SameShape store' store) (hi : SameShape into' into) (hd : DyadicRatio store.width into.width P t)
    (ha : r = .area → into.width ≤ store.width)
    (hmove : ∀ y x c, y < store.height → x + P * m < store.width → c < N →
      sample store'.buffer (store.strideOf N) N y (x + P * m) c = sample store.buffer (store.strideOf N) N y x c) :
    ∃ qh out out', IsTable L r store.width into.width qh ∧
      genericResize W N (formatU8 N) L r store into = some (.ok (), out) ∧
      genericResize W N (formatU8 N) L r store' into' = some (.ok (), out') ∧
      ∀ y x c, y < into.height → x + 2 ^ t * m < into.width → c < N → Inner store.width (qh.bound x) →
        Inner store.width (qh.bound (x + 2 ^ t * m)) →
        sample out'.buffer (into.strideOf N) N y (x + 2 ^ t * m) c = sample out.buffer (into.strideOf N) N y x c := by
  obtain ⟨qv, qh, out, out', tv, th, vv, vh, o1, o1', o⟩ := two_resizes h h' hs hi
  refine ⟨qh, out, out', th, o1, o1', fun y x c hy hx hc hb hb' => ?_⟩
  have e1 := o true y (x + 2 ^ t * m) c hy hx hc
  have e2 := o false y x c hy (by omega) hc
  simp only [if_true, Bool.false_eq_true, if_false] at e1 e2
  rw [e1, e2]
  congr 1
  refine separable_move_cols (D := P * m) (nv := (qv.bound y).size) (nh := (qh.bound x).size) hy (fun _ => vv.inside y hy)
    (fun a b hab => fixedFloor_congr (fun _ _ => rfl) hab) (fun y x hy hx => ?_) (fun hw => ?_) (fun hw => ?_)
  · unfold pxD; rw [hmove y x c hy hx hc]
  · rw [← hw] at hd hx
    rw [hd.same]
    exact ⟨rfl, hx⟩
  · obtain ⟨a1, a2, a3⟩ := table_shift hd (fun a => ⟨(h.area a).1, ha a⟩) th hx hb hb'
    have hin := vh.inside (x + 2 ^ t * m) hx
    rw [a1, a2] at hin
    refine ⟨a1, by omega, fun a b hab => ?_⟩
    rw [a2]
    exact fixedRound_congr a3 hab

/-- **C248, rows.** Likewise for rows. -/
theorem C248_shift_rows {W N : ℕ} {L : Lib} {r : ResamplingFunction} {store store' into into' : Image ℕ}
    {P t m : ℕ} (h : Accepted W N L r store into) (h' : Accepted W N L r store' into')
    (hs : SameShape store' store) (hi : SameShape into' into) (hd : DyadicRatio store.height into.height P t)
    (ha : r = .area → into.height ≤ store.height)
    (hmove : ∀ y x c, y + P * m < store.height → x < store.width → c < N →
      sample store'.buffer (store.strideOf N) N (y + P * m) x c = sample store.buffer (store.strideOf N) N y x c) :
    ∃ qv out out', IsTable L r store.height into.height qv ∧
      genericResize W N (formatU8 N) L r store into = some (.ok (), out) ∧
      genericResize W N (formatU8 N) L r store' into' = some (.ok (), out') ∧
      ∀ y x c, y + 2 ^ t * m < into.height → x < into.width → c < N → Inner store.height (qv.bound y) →
        Inner store.height (qv.bound (y + 2 ^ t * m)) →
        sample out'.buffer (into.strideOf N) N (y + 2 ^ t * m) x c = sample out.buffer (into.strideOf N) N y x c := by
  obtain ⟨qv, qh, out, out', tv, th, vv, vh, o1, o1', o⟩ := two_resizes h h' hs hi
  refine ⟨qv, out, out', tv, o1, o1', fun y x c hy hx hc hb hb' => ?_⟩
  have e1 := o true (y + 2 ^ t * m) x c hy hx hc
  have e2 := o false y x c (by omega) hx hc
  simp only [if_true, Bool.false_eq_true, if_false] at e1 e2
  rw [e1, e2]
  congr 1
  refine separable_move_rows (D := P * m) (nh := (qh.bound x).size) (nv := (qv.bound y).size) hx (fun _ => vh.inside x hx)
    (fun a b hab => fixedRound_congr (fun _ _ => rfl) hab) (fun y x hy hx => ?_) (fun hw => ?_) (fun hw => ?_)
  · unfold pxD; rw [hmove y x c hy hx hc]
  · rw [← hw] at hd hy
    rw [hd.same]
    exact ⟨rfl, hy⟩
  · obtain ⟨a1, a2, a3⟩ := table_shift hd (fun a => ⟨(h.area a).2, ha a⟩) tv hy hb hb'
    have hin := vv.inside (y + 2 ^ t * m) hy
    rw [a1, a2] at hin
    refine ⟨a1, by omega, fun a b hab => ?_⟩
    rw [a2]
    exact fixedFloor_congr a3 hab

/-- Accepted 8-bit calls on small pictures. -/
theorem Demo.acceptedAny {N : ℕ} {L : Lib} {r : ResamplingFunction} {src dst : Image ℕ} (hN : 1 ≤ N ∧ N ≤ 4)
    (h1 : checkResize (2 ^ 64) N false src dst = .ok ()) (hr : r ≠ .nearest ∧ r ≠ .area)
    (h2 : src.width ≠ dst.width ∨ src.height ≠ dst.height) (h3 : src.width ≤ 2 ^ 23 ∧ src.height ≤ 2 ^ 23)
    (h4 : src.width * dst.height * N < 2 ^ 64) (h5 : ∀ v ∈ src.buffer, v ≤ 255)
    (h6 : ((tableOf L r src.height dst.height).map fun t => decide (t.kernelSize ≤ 256)) = some true)
    (h7 : ((tableOf L r src.width dst.width).map fun t => decide (t.kernelSize ≤ 256)) = some true) :
    Accepted (2 ^ 64) N L r src dst := by
  obtain ⟨c1, c2, c3, _⟩ := checkResize_ok.1 h1
  refine ⟨hN, h1, hr.1, h2, h3, fun a => absurd a hr.2, h4, h5, ?_, ?_⟩
  · intro q hq
    refine noOverflow_of_taps c3.2.1 h3.2 (fun a => absurd a hr.2) hq ?_
    obtain ⟨fw, e, rfl⟩ := hq
    rw [e] at h6
    show fw.kernelSize ≤ 256
    simpa using h6
  · intro q hq
    refine noOverflow_of_taps c3.1 h3.1 (fun a => absurd a hr.2) hq ?_
    obtain ⟨fw, e, rfl⟩ := hq
    rw [e] at h7
    show fw.kernelSize ≤ 256
    simpa using h7

/-- Twelve pixels, and the same moved right by two pixels. -/
def Demo.row12 : Image ℕ := ⟨[9, 250, 3, 77, 130, 8, 64, 255, 0, 31, 200, 17], 1, 12, 1, 12, 8⟩
def Demo.row12m : Image ℕ := ⟨[1, 2, 9, 250, 3, 77, 130, 8, 64, 255, 0, 31], 1, 12, 1, 12, 8⟩
def Demo.row6 : Image ℕ := ⟨[0, 0, 0, 0, 0, 0], 1, 6, 1, 6, 8⟩

theorem Demo.acceptedRow : Accepted (2 ^ 64) 1 demoLib .bicubic Demo.row12 Demo.row6 :=
  Demo.acceptedAny (by decide) (by decide) (by decide) (by decide) (by decide) (by decide) (by decide)
    (by decide +kernel) (by decide +kernel)
theorem Demo.acceptedRowM : Accepted (2 ^ 64) 1 demoLib .bicubic Demo.row12m Demo.row6 :=
  Demo.acceptedAny (by decide) (by decide) (by decide) (by decide) (by decide) (by decide) (by decide)
    (by decide +kernel) (by decide +kernel)

example := C248_shift_columns (m := 1) Demo.acceptedRow Demo.acceptedRowM (by unfold SameShape; decide) (by unfold SameShape; decide)
  (P := 2) (t := 0) ⟨by decide, by decide, by decide, by decide⟩ (by simp)
  (by
    have : ∀ y : Fin 1, ∀ x : Fin 10, ∀ c : Fin 1, sample Demo.row12m.buffer (Demo.row12.strideOf 1) 1 y (x + 2 * 1) c =
      sample Demo.row12.buffer (Demo.row12.strideOf 1) 1 y x c := by decide
    intro y x c hy hx hc
    have hx' : x + 2 * 1 < 12 := hx
    exact this ⟨y, hy⟩ ⟨x, by omega⟩ ⟨c, hc⟩)
/-- Windows 2 .. 5 and 4 .. 7 of that table are inside. -/
example : ((tableOf demoLib .bicubic 12 6).map fun t => (t.bound 1, t.bound 2)) = some (⟨1, 4⟩, ⟨3, 4⟩) := by decide +kernel

/-! ### C249: the extent of the windows -/

/-- **C249, whole-number reductions.** For every filter and every reduction by a whole number, each window contains
every source pixel nearer to the centre than half the kernel size. -/
theorem C249_extent_partial {L : Lib} {r : ResamplingFunction} {inn out n i : ℕ} {q : FilterWeights ℤ}
    (h : DyadicRatio inn out n 0) (ha : r = .area → out ≤ 2 ^ 22) (hq : IsTable L r inn out q) (hk : q.kernelSize ≤ 2 ^ 24)
    (hi : i < out) : Covers inn (q.bound i) (centre inn out i) ((q.kernelSize : ℚ) / 2) := by
  have ho : out ≤ inn := by
    have h1 := h.ratio
    have h2 := h.P_pos
    simp only [pow_zero, mul_one] at h1
    nlinarith
  have hsc := h.one_le_scale ho
  obtain ⟨v, hrow⟩ := table_general h.inn_pos h.inn_le (fun a => ⟨ha a, hsc⟩) hq
  obtain ⟨b, _⟩ := hrow i hi
  rw [b]
  have hks : q.kernelSize = wKernelSize rnd (filterOf rnd L r) inn out := by
    obtain ⟨fw, e, rfl⟩ := hq
    obtain ⟨fw', e', v, t⟩ := generateWeights_spec RoundOK.rnd (filterOf_ok L r) (out := out) h.inn_pos h.inn_le
      (fun hA i hi => areaSx_rnd h.inn_pos h.inn_le (ha (filterOf_area L r hA)) hi)
    unfold tableOf at e
    rw [e'] at e
    obtain rfl := Option.some.inj e
    rcases t with ⟨_, t⟩ | ⟨⟨a1, a2⟩, _⟩
    · exact t.kernel
    · exact absurd hsc (by push Not; exact a2)
  rw [hks] at hk ⊢
  refine window_covers h hi hk ?_
  rw [h.wCenter_eq hi]
  generalize wKernelSize rnd (filterOf rnd L r) inn out = K
  generalize (2 * i + 1) * n = A
  have e : (A : ℚ) / 2 ^ (0 + 1) - (K : ℚ) / 2 = (((A : ℤ) - K : ℤ) : ℚ) / 2 := by push_cast; ring
  rw [e]
  have h3 : ⌊(((A : ℤ) - K : ℤ) : ℚ) / 2⌋ = ((A : ℤ) - K) / 2 := by
    have := Rat.floor_intCast_div_natCast ((A : ℤ) - K) 2
    simpa using this
  rw [h3]
  have h4 : ((A : ℤ) - K) ≤ 2 * (((A : ℤ) - K) / 2) + 1 := by omega
  have h5 : ((((A : ℤ) - K : ℤ)) : ℚ) ≤ 2 * ((((A : ℤ) - K) / 2 : ℤ) : ℚ) + 1 := by exact_mod_cast h4
  linarith

/-- A table with a property that can be checked by computation. -/
theorem Demo.table_of {L : Lib} {r : ResamplingFunction} {inn out : ℕ} {p : FilterWeights ℚ → Bool}
    (h : (tableOf L r inn out).map p = some true) : ∃ fw, IsTable L r inn out (numericalApproximation rnd fw) ∧
      tableOf L r inn out = some fw ∧ p fw = true := by
  obtain ⟨fw, e, h⟩ := Option.map_eq_some_iff.1 h
  exact ⟨fw, ⟨fw, e, rfl⟩, e, h⟩

example : ∃ q, IsTable demoLib .catmullRom 12 6 q ∧ q.kernelSize = 4 ∧ Covers 12 (q.bound 2) (centre 12 6 2) ((q.kernelSize : ℚ) / 2) := by
  obtain ⟨fw, t, _, k⟩ := Demo.table_of (L := demoLib) (r := .catmullRom) (inn := 12) (out := 6)
    (p := fun fw => decide (fw.kernelSize = 4)) (by decide +kernel)
  have k' : (numericalApproximation rnd fw).kernelSize = 4 := of_decide_eq_true k
  exact ⟨_, t, k', C249_extent_partial (n := 2) ⟨by decide, by decide, by decide, by decide⟩ (by simp) t
    (by rw [k']; norm_num) (by norm_num)⟩

/-- The kernel size of filters of two taps, at whole-number reductions. -/
theorem kernelSize_two {L : Lib} {r : ResamplingFunction} {inn out n : ℕ} {q : FilterWeights ℤ}
    (h : DyadicRatio inn out n 0) (ha : r = .area → out ≤ 2 ^ 22) (hq : IsTable L r inn out q)
    (hm : (filterOf rnd L r).minKernelSize = 2) (hres : (filterOf rnd L r).isResizable = true) : q.kernelSize = 2 * n := by
  have ho : out ≤ inn := by
    have h1 := h.ratio
    have h2 := h.P_pos
    simp only [pow_zero, mul_one] at h1
    nlinarith
  have hsc := h.one_le_scale ho
  obtain ⟨fw, e, rfl⟩ := hq
  obtain ⟨fw', e', v, t⟩ := generateWeights_spec RoundOK.rnd (filterOf_ok L r) (out := out) h.inn_pos h.inn_le
    (fun hA i hi => areaSx_rnd h.inn_pos h.inn_le (ha (filterOf_area L r hA)) hi)
  unfold tableOf at e
  rw [e'] at e
  obtain rfl := Option.some.inj e
  rcases t with ⟨_, t⟩ | ⟨⟨a1, a2⟩, _⟩
  · show fw'.kernelSize = _
    rw [t.kernel]
    unfold wKernelSize wCutoff
    rw [if_pos hres, hm, max_eq_left hsc, h.wScale_eq]
    have hn : n ≤ 2 ^ 23 := by have := h.outP_le; have := h.out_pos; nlinarith
    have e : (2 : ℚ) * (n / 2 ^ 0) = ((2 * n : ℕ) : ℚ) := by push_cast; ring
    rw [e, RoundOK.rnd.nat (by omega)]
    have := round_int ((2 * n : ℕ) : ℤ) (by positivity)
    rw [Int.cast_natCast] at this
    rw [this]; unfold F32.toUsize; omega
  · exact absurd hsc (by push Not; exact a2)

/-- **C249, Bilinear and Hermite.** At whole-number reductions no pixel to which the kernel gives weight is left out. -/
theorem C249_complete_partial {L : Lib} {r : ResamplingFunction} {inn out n i : ℕ} {q : FilterWeights ℤ}
    (h : DyadicRatio inn out n 0) (hr : r = .bilinear ∨ r = .hermite) (hq : IsTable L r inn out q) (hi : i < out) :
    Complete ((filterOf id L r).kernel) inn out i (q.bound i) := by
  have hra : r = .area → out ≤ 2 ^ 22 := by rcases hr with rfl | rfl <;> simp
  have hk : q.kernelSize = 2 * n := kernelSize_two h hra hq (by rcases hr with rfl | rfl <;> rfl)
    (by rcases hr with rfl | rfl <;> rfl)
  have hn : n ≤ 2 ^ 23 := by have := h.outP_le; have := h.out_pos; nlinarith
  have hn1 : (1 : ℚ) ≤ n := by exact_mod_cast h.P_pos
  have hc := C249_extent_partial h hra hq (by omega) hi
  rw [hk] at hc
  intro k hkn hne
  refine hc k hkn ?_
  have hd : (inn : ℚ) / out = n := by rw [h.div]; simp
  rw [hd, max_eq_right hn1] at hne
  by_contra hge
  push_cast at hge
  have hx : 1 ≤ |(k + 1 / 2 : ℚ) - centre inn out i| / n := by
    rw [le_div_iff₀ (by linarith)]; linarith
  apply hne
  generalize |(k + 1 / 2 : ℚ) - centre inn out i| / n = x at hx
  rcases hr with rfl | rfl
  · show Kernel.bilinear id x = 0
    unfold Kernel.bilinear
    simp only [abs_of_nonneg (show 0 ≤ x by linarith)]
    rw [if_neg (by linarith)]
  · show Kernel.hermiteSpline id x = 0
    unfold Kernel.hermiteSpline Kernel.bcSpline
    simp only [if_neg (show ¬ x < 0 by linarith), if_neg (show ¬ x < 1 by linarith), id]
    split_ifs
    · ring
    · rfl

example : ∃ q, IsTable demoLib .bilinear 9 3 q ∧ Complete (Kernel.bilinear id) 9 3 1 (q.bound 1) := by
  obtain ⟨fw, e, _⟩ := table_exists demoLib .bilinear (inn := 9) (out := 3) (by norm_num) (by norm_num) (by simp)
  exact ⟨_, ⟨fw, e, rfl⟩, C249_complete_partial (n := 3) ⟨by decide, by decide, by decide, by decide⟩ (Or.inl rfl)
    ⟨fw, e, rfl⟩ (by norm_num)⟩

/-- **C249 fails for enlargements with Bilinear**: from 3 to 6 pixels, output pixel 3 (centre 1.75) ignores source
pixel 2 (centre 2.5), whose weight is 1/4. -/
theorem C249_bilinear_violated (L : Lib) : ∃ q, IsTable L .bilinear 3 6 q ∧ ¬ Complete (Kernel.bilinear id) 3 6 3 (q.bound 3) := by
  obtain ⟨fw, t, _, k⟩ := Demo.table_of (L := L) (r := .bilinear) (inn := 3) (out := 6)
    (p := fun fw => decide (fw.bound 3 = ⟨0, 2⟩))
    (by
      have e : tableOf L .bilinear 3 6 = tableOf demoLib .bilinear 3 6 := rfl
      rw [e]; decide +kernel)
  have k' : (numericalApproximation rnd fw).bound 3 = ⟨0, 2⟩ := of_decide_eq_true k
  refine ⟨_, t, fun h => ?_⟩
  have := (h 2 (by norm_num) (by decide +kernel)).2
  rw [k'] at this
  exact absurd this (by decide)

/-- **C249 fails for the cubic filters**: their kernels reach two (reduced) pixels to each side but the windows only
one. From 8 to 4 pixels, output pixel 1 (centre 3) ignores source pixel 5 (centre 5.5). -/
theorem C249_cubic_violated (L : Lib) {r : ResamplingFunction}
    (hr : r ∈ [ResamplingFunction.cubic, .catmullRom, .bicubic, .mitchellNetravalli, .bSpline]) :
    ∃ q, IsTable L r 8 4 q ∧ ¬ Complete ((filterOf id L r).kernel) 8 4 1 (q.bound 1) := by
  have hr' : r = .cubic ∨ r = .catmullRom ∨ r = .bicubic ∨ r = .mitchellNetravalli ∨ r = .bSpline := by
    simpa using hr
  have hb : ((tableOf L r 8 4).map fun fw => decide (fw.bound 1 = ⟨1, 4⟩)) = some true := by
    have e : tableOf L r 8 4 = tableOf demoLib r 8 4 := by rcases hr' with rfl | rfl | rfl | rfl | rfl <;> rfl
    rw [e]
    rcases hr' with rfl | rfl | rfl | rfl | rfl <;> decide +kernel
  obtain ⟨fw, t, _, k⟩ := Demo.table_of hb
  have k' : (numericalApproximation rnd fw).bound 1 = ⟨1, 4⟩ := of_decide_eq_true k
  refine ⟨_, t, fun h => ?_⟩
  have hne : (filterOf id L r).kernel (|((5 : ℕ) + 1 / 2 : ℚ) - centre 8 4 1| / max 1 (((8 : ℕ) : ℚ) / (4 : ℕ))) ≠ 0 := by
    have e : filterOf id L r = filterOf id demoLib r := by rcases hr' with rfl | rfl | rfl | rfl | rfl <;> rfl
    rw [e]
    rcases hr' with rfl | rfl | rfl | rfl | rfl <;> decide +kernel
  have := (h 5 (by norm_num) hne).2
  rw [k'] at this
  exact absurd this (by decide)

/-! ### C250: Bilinear enlargements by powers of two -/

theorem fixedRound_one {v : ℕ} (h : v ≤ 255) : clamp 255 (fixRound (32767 * v)) = v := by
  have e : fixRound (32767 * v) = v := by
    unfold fixRound
    have : (v : ℚ) ≤ 255 := by exact_mod_cast h
    have h0 : (0 : ℚ) ≤ v := by positivity
    rw [Int.floor_eq_iff]
    push_cast; constructor <;> linarith
  rw [e]; unfold clamp; omega

theorem fixRound_fraction {t : ℕ} (ht : t ≤ 14) (X : ℕ) : fixRound (2 ^ (14 - t) * X) = ((X + 2 ^ t) / (2 * 2 ^ t) : ℕ) := by
  unfold fixRound
  have e : (32768 : ℚ) = 2 ^ (14 - t) * (2 * 2 ^ t) := by
    have : (2 : ℚ) ^ (14 - t) * 2 ^ t = 2 ^ 14 := by rw [← pow_add]; congr 1; omega
    nlinarith
  have e2 : ((2 ^ (14 - t) * X : ℤ) : ℚ) / 32768 + 1 / 2 = (((X + 2 ^ t : ℕ)) : ℚ) / ((2 * 2 ^ t : ℕ) : ℚ) := by
    rw [e]; push_cast; field_simp
  rw [e2, Rat.floor_natCast_div_natCast]
  push_cast; rfl

/-- One row of the table of a Bilinear enlargement, quantised. -/
theorem up_table {L : Lib} {n t k j : ℕ} {q : FilterWeights ℤ} (h1 : 1 ≤ n) (hs : n * 2 ^ (t + 1) ≤ 2 ^ 24)
    (hq : IsTable L .bilinear n (n * 2 ^ t) q) (hk : k < n) (hj : j < 2 ^ t) :
    (q.bound (2 ^ t * k + j)).start = k - 1 ∧ (q.bound (2 ^ t * k + j)).size = min (k - 1 + 2) n - (k - 1) ∧
    ∀ a, a < (q.bound (2 ^ t * k + j)).size → q.weight (2 ^ t * k + j) a =
      ((genRow rnd (filterOf rnd L .bilinear) n (n * 2 ^ t) (2 ^ t * k + j)).map (quantise rnd)).getD a 0 := by
  obtain ⟨hi, _⟩ := up_centre h1 hs hk hj
  obtain ⟨S, E⟩ := up_window L h1 hs hk hj
  obtain ⟨v, hrow⟩ := table_general h1 (dyadic_up h1 hs).inn_le (by simp) hq
  obtain ⟨b, w⟩ := hrow _ hi
  refine ⟨by rw [b]; exact S, by rw [b]; show _ - _ = _; rw [S, E], fun a ha => ?_⟩
  rw [w a ha, List.getD_eq_getElem?_getD, List.getD_eq_getElem?_getD, List.getElem?_map]
  cases (genRow rnd (filterOf rnd L .bilinear) n (n * 2 ^ t) (2 ^ t * k + j))[a]? with
  | none => exact quantise_zero RoundOK.rnd
  | some w => rfl

theorem fixedRound_two {n : ℕ} {w : ℕ → ℤ} {p : ℕ → ℕ} (hn : n = 2) :
    fixedRound 255 n w p = clamp 255 (fixRound (w 0 * p 0 + w 1 * p 1)) := by
  subst hn
  unfold fixedRound wsum
  rw [sum_range_succ, sum_range_one]

theorem fixedRound_head {n : ℕ} {w : ℕ → ℤ} {p : ℕ → ℕ} (h0 : w 0 = 32767) (h : ∀ a, 0 < a → a < n → w a = 0) (hn : 1 ≤ n)
    (hp : p 0 ≤ 255) : fixedRound 255 n w p = p 0 := by
  unfold fixedRound wsum
  rw [sum_eq_single_of_mem 0 (by simp; omega) (fun a ha hne => ?_), h0]
  · exact fixedRound_one hp
  · rw [mem_range] at ha
    rw [h a (by omega) ha, zero_mul]

theorem fraction_le {A B T a b : ℕ} (hT : 0 < T) (hAB : A + B = 2 * T) (ha : a ≤ 255) (hb : b ≤ 255) :
    (A * a + B * b + T) / (2 * T) ≤ 255 := by
  rw [Nat.div_le_iff_le_mul (by omega)]
  have h1 : A * a ≤ A * 255 := Nat.mul_le_mul_left _ ha
  have h2 : B * b ≤ B * 255 := Nat.mul_le_mul_left _ hb
  have h3 : A * 255 + B * 255 = 255 * (2 * T) := by rw [← hAB]; ring
  omega

/-- Two weights `A / 2T`, `B / 2T`. -/
theorem fixedRound_fraction {t n A B : ℕ} {w : ℕ → ℤ} {p : ℕ → ℕ} (ht : t ≤ 14) (hn : n = 2) (hAB : A + B = 2 * 2 ^ t)
    (h0 : w 0 = 2 ^ (14 - t) * A) (h1 : w 1 = 2 ^ (14 - t) * B) (hp0 : p 0 ≤ 255) (hp1 : p 1 ≤ 255) :
    fixedRound 255 n w p = (A * p 0 + B * p 1 + 2 ^ t) / (2 * 2 ^ t) := by
  rw [fixedRound_two hn, h0, h1]
  have e : (2 ^ (14 - t) * (A : ℤ) * (p 0 : ℤ) + 2 ^ (14 - t) * (B : ℤ) * (p 1 : ℤ)) = 2 ^ (14 - t) * ((A * p 0 + B * p 1 : ℕ) : ℤ) := by
    push_cast; ring
  rw [e, fixRound_fraction ht]
  have := fraction_le (T := 2 ^ t) (by positivity) hAB hp0 hp1
  revert this
  generalize (A * p 0 + B * p 1 + 2 ^ t) / (2 * 2 ^ t) = z
  intro this
  unfold clamp
  rw [min_eq_left (by exact_mod_cast this), max_eq_right (by positivity), Int.toNat_natCast]

/-- A weight `A / 2T` is kept by the quantisation. -/
theorem q_fraction {t A : ℕ} (ht : t ≤ 14) (hA : A < 2 * 2 ^ t) : quantise rnd ((A : ℚ) / (2 * 2 ^ t)) = 2 ^ (14 - t) * A := by
  have e : (2 : ℕ) ^ (14 - t) * (2 * 2 ^ t) = 32768 := by
    have : (2 : ℕ) ^ (14 - t) * 2 ^ t = 2 ^ 14 := by rw [← pow_add]; congr 1; omega
    nlinarith
  have e' : (32768 : ℚ) = 2 ^ (14 - t) * (2 * 2 ^ t) := by exact_mod_cast e.symm
  have h := q_whole (z := 2 ^ (14 - t) * (A : ℤ)) (by positivity) (by
    have : 2 ^ (14 - t) * (A + 1) ≤ 2 ^ (14 - t) * (2 * 2 ^ t) := Nat.mul_le_mul_left _ hA
    rw [e, Nat.mul_add, mul_one] at this
    have h1 : 1 ≤ 2 ^ (14 - t) := Nat.one_le_two_pow
    have : 2 ^ (14 - t) * A ≤ 32767 := by omega
    exact_mod_cast this)
  rw [← h]
  congr 1
  rw [e']; push_cast; field_simp

/-- **C250, Bilinear enlargements by a power of two** (width, 8-bit). Linear interpolation — rounded to nearest — in
the left half of every source pixel, in the first and in the last one; in the right half of all other pixels the
result is the source pixel itself, not an interpolation. -/
theorem C250_linear_partial {W N t : ℕ} {L : Lib} {store into : Image ℕ} (h : AcceptedCall W N .bilinear store into)
    (hb : ∀ v ∈ store.buffer, v ≤ 255) (ht1 : 1 ≤ t) (ht : t ≤ 14) (hw : into.width = store.width * 2 ^ t)
    (hs : store.width * 2 ^ (t + 1) ≤ 2 ^ 24) (hh : store.height = into.height) :
    ∃ out, genericResize W N (formatU8 N) L .bilinear store into = some (.ok (), out) ∧
      ∀ y k j c, y < into.height → k < store.width → j < 2 ^ t → c < N →
        ((2 * j + 1 < 2 ^ t ∨ k = 0 ∨ k + 1 = store.width) →
          sample out.buffer (into.strideOf N) N y (2 ^ t * k + j) c = some
            (linearAt (fun x => pxD 0 store.buffer (store.strideOf N) N y x c) store.width (2 ^ t) k j)) ∧
        (2 ^ t < 2 * j + 1 → 1 ≤ k →
          sample out.buffer (into.strideOf N) N y (2 ^ t * k + j) c = some (pxD 0 store.buffer (store.strideOf N) N y k c)) := by
  obtain ⟨_, _, c3, _⟩ := checkResize_ok.1 h.checked
  have h1 : 1 ≤ store.width := c3.1
  obtain ⟨qv, qh, out, tv, th, o1, o2, o3, o4⟩ := C115_resize_u8 (L := L) (Or.inl (by decide)) h hb
  refine ⟨out, o1, fun y k j c hy hk hj hc => ?_⟩
  rw [hw] at th
  obtain ⟨hi, _⟩ := up_centre h1 hs hk hj
  have o := o4 y (2 ^ t * k + j) c hy (by rw [hw]; exact hi) hc
  have hT2 : 2 ≤ 2 ^ t := by calc 2 = 2 ^ 1 := rfl
    _ ≤ 2 ^ t := Nat.pow_le_pow_right (by norm_num) ht1
  have hev : 2 * 2 ^ (t - 1) = 2 ^ t := by rw [← pow_succ']; congr 1; omega
  have hne : store.width ≠ into.width := by rw [hw]; nlinarith
  unfold separable at o
  simp only at o
  rw [if_neg hne] at o
  simp only [if_pos hh] at o
  have hp : ∀ x, pxD 0 store.buffer (store.strideOf N) N y x c ≤ 255 := fun x => pxD_byte hb N c y x
  obtain ⟨s, z, w⟩ := up_table h1 hs th hk hj
  have right : 2 ^ t < 2 * j + 1 → 1 ≤ k → sample out.buffer (into.strideOf N) N y (2 ^ t * k + j) c =
      some (pxD 0 store.buffer (store.strideOf N) N y k c) := by
    intro hr hk0
    rw [o]; congr 1
    have hrow := up_row_right L h1 hs hk hj hk0 hr
    have z2 : (qh.bound (2 ^ t * k + j)).size = 2 := by omega
    rw [hrow] at w
    have w0 := w 0 (by omega)
    have w1 := w 1 (by omega)
    simp only [List.getD_cons_zero, List.getD_cons_succ] at w0 w1
    rw [fixedRound_two z2, w0, w1, s, show k - 1 + 1 = k by omega, zero_mul, zero_add]
    exact fixedRound_one (hp k)
  refine ⟨fun hcase => ?_, right⟩
  unfold linearAt
  simp only
  by_cases hl : 2 * j + 1 < 2 ^ t
  · rw [if_pos hl]
    by_cases hk0 : k = 0
    · subst hk0
      rw [if_pos rfl, o]; congr 1
      obtain ⟨m, hrow⟩ := up_row_first_left L h1 hs hj (by omega) (Or.inl hl)
      rw [hrow] at w
      have z1 : 1 ≤ (qh.bound (2 ^ t * 0 + j)).size := by omega
      rw [fixedRound_head (w := fun a => qh.weight (2 ^ t * 0 + j) a) (p := fun a => pxD 0 store.buffer (store.strideOf N) N y ((qh.bound (2 ^ t * 0 + j)).start + a) c) (by show qh.weight _ 0 = _; rw [w 0 (by omega)]; rfl) (fun a ha hlt => ?_) z1 (hp _), s]
      rw [w a hlt]
      obtain ⟨b, rfl⟩ : ∃ b, a = b + 1 := ⟨a - 1, by omega⟩
      rw [List.getD_cons_succ, List.getD_eq_getElem?_getD, List.getElem?_replicate]
      split_ifs <;> rfl
    · rw [if_neg hk0, o]; congr 1
      have z2 : (qh.bound (2 ^ t * k + j)).size = 2 := by omega
      rw [up_row_left L h1 hs hk hj (by omega) hl] at w
      have a0 := w 0 (by omega)
      have a1 := w 1 (by omega)
      simp only [List.map_cons, List.map_nil, List.getD_cons_zero, List.getD_cons_succ] at a0 a1
      have e0 : ((2 ^ t - (2 * j + 1) : ℤ) : ℚ) / (2 * 2 ^ t) = ((2 ^ t - (2 * j + 1) : ℕ) : ℚ) / (2 * 2 ^ t) := by
        congr 1; rw [Nat.cast_sub (by omega)]; push_cast; ring
      have e1 : ((2 ^ t + (2 * j + 1) : ℤ) : ℚ) / (2 * 2 ^ t) = ((2 ^ t + (2 * j + 1) : ℕ) : ℚ) / (2 * 2 ^ t) := by
        push_cast; ring
      rw [e0, q_fraction ht (by omega)] at a0
      rw [e1, q_fraction ht (by omega)] at a1
      rw [fixedRound_fraction (w := fun a => qh.weight (2 ^ t * k + j) a) (p := fun a => pxD 0 store.buffer (store.strideOf N) N y ((qh.bound (2 ^ t * k + j)).start + a) c) ht z2 (by omega) a0 a1 (hp _) (hp _), s, show k - 1 + 1 = k by omega]
      simp
  · rw [if_neg hl]
    have hr : 2 ^ t < 2 * j + 1 := by omega
    by_cases hlast : k + 1 = store.width
    · rw [if_pos hlast]
      rcases Nat.eq_zero_or_pos k with hk0 | hk0
      · subst hk0
        rw [o]; congr 1
        obtain ⟨m, hrow⟩ := up_row_first_left L h1 hs hj (by omega) (Or.inr (by omega))
        rw [hrow] at w
        have z1 : (qh.bound (2 ^ t * 0 + j)).size = 1 := by omega
        rw [fixedRound_head (w := fun a => qh.weight (2 ^ t * 0 + j) a) (p := fun a => pxD 0 store.buffer (store.strideOf N) N y ((qh.bound (2 ^ t * 0 + j)).start + a) c) (by show qh.weight _ 0 = _; rw [w 0 (by omega)]; rfl) (fun a ha hlt => by omega) (by omega) (hp _), s]
      · exact right hr hk0
    · rw [if_neg hlast]
      have hk0 : k = 0 := by omega
      subst hk0
      rw [o]; congr 1
      have z2 : (qh.bound (2 ^ t * 0 + j)).size = 2 := by omega
      rw [up_row_first_right L h1 hs (by omega) hj hr] at w
      have a0 := w 0 (by omega)
      have a1 := w 1 (by omega)
      simp only [List.map_cons, List.map_nil, List.getD_cons_zero, List.getD_cons_succ] at a0 a1
      have e0 : ((3 * 2 ^ t - (2 * j + 1) : ℤ) : ℚ) / (2 * 2 ^ t) = ((3 * 2 ^ t - (2 * j + 1) : ℕ) : ℚ) / (2 * 2 ^ t) := by
        congr 1; rw [Nat.cast_sub (by omega)]; push_cast; ring
      have e1 : ((2 * j + 1 - 2 ^ t : ℤ) : ℚ) / (2 * 2 ^ t) = ((2 * j + 1 - 2 ^ t : ℕ) : ℚ) / (2 * 2 ^ t) := by
        congr 1; rw [Nat.cast_sub (by omega)]; push_cast; ring
      rw [e0, q_fraction ht (by omega)] at a0
      rw [e1, q_fraction ht (by omega)] at a1
      rw [fixedRound_fraction (w := fun a => qh.weight (2 ^ t * 0 + j) a) (p := fun a => pxD 0 store.buffer (store.strideOf N) N y ((qh.bound (2 ^ t * 0 + j)).start + a) c) ht z2 (by omega) a0 a1 (hp _) (hp _), s]

/-- Three pixels to six. -/
def Demo.row3 : Image ℕ := ⟨[0, 0, 100], 1, 3, 1, 3, 8⟩
theorem Demo.callRow3 : AcceptedCall (2 ^ 64) 1 .bilinear Demo.row3 Demo.row6 := by constructor <;> decide

example := C250_linear_partial (L := demoLib) (t := 1) Demo.callRow3 (by decide) (by decide) (by decide) (by decide) (by decide) rfl

/-- **C250 fails in general**: enlarging `0 0 100` twice gives 0 at output pixel 3, where linear interpolation gives 25. -/
theorem C250_violated (L : Lib) : ∃ out, genericResize (2 ^ 64) 1 (formatU8 1) L .bilinear Demo.row3 Demo.row6 = some (.ok (), out) ∧
    sample out.buffer 6 1 0 (2 * 1 + 1) 0 = some 0 ∧ linearAt (fun x => pxD 0 Demo.row3.buffer 3 1 0 x 0) 3 2 1 1 = 25 := by
  obtain ⟨out, o, hh⟩ := C250_linear_partial (L := L) (t := 1) Demo.callRow3 (by decide) (by decide) (by decide) (by decide)
    (by decide) rfl
  exact ⟨out, o, (hh 0 1 1 0 (by decide) (by decide) (by decide) (by decide)).2 (by decide) (by decide), by decide⟩

end PicScale
