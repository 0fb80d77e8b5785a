import Verif.Lemmas.NearTaps

/-!
Property theorems C257 – C258: how much each source pixel contributes. Nearer pixels contribute no less; a
one-pixel picture shows the weights.
-/

namespace PicScale

open Finset F32 Spec

/-- Taps of a row of the quantised table, in the order of their distances. -/
theorem table_order {L : Lib} {r : ResamplingFunction} (hr : Fades L r) {inn out P t i k l : ℕ} {q : FilterWeights ℤ}
    (h : DyadicRatio inn out P t) (ha : r = .area → out ≤ 2 ^ 22 ∧ out ≤ inn) (hq : IsTable L r inn out q)
    (hi : i < out) (hk : k < (q.bound i).size) (hl : l < (q.bound i).size)
    (hd : |(((q.bound i).start + k : ℕ) + 1 / 2 : ℚ) - centre inn out i| ≤
      |(((q.bound i).start + l : ℕ) + 1 / 2 : ℚ) - centre inn out i|) : q.weight i l ≤ q.weight i k := by
  obtain ⟨v, hrow⟩ := table_general h.inn_pos h.inn_le (fun a => ⟨(ha a).1, h.one_le_scale (ha a).2⟩) hq
  obtain ⟨b, w⟩ := hrow i hi
  have hin := v.inside i hi
  rw [w k hk, w l hl]
  rw [b] at hk hl hd hin
  exact quantise_mono RoundOK.rnd (genRow_order L hr h hi (fun j hj => by omega) hk hl hd)

/-- The sum over a window of a row with a single pixel `v` at `s + k`. -/
theorem wsum_single {n s k v : ℕ} {w : ℕ → ℤ} {p : ℕ → ℕ} (hk : k < n) (hp : ∀ a, a < n → p (s + a) = if a = k then v else 0) :
    wsum n w (fun a => (p (s + a) : ℤ)) = w k * v := by
  unfold wsum
  rw [sum_eq_single k]
  · simp only; rw [hp k hk, if_pos rfl]
  · intro a ha hak
    simp only; rw [hp a (mem_range.1 ha), if_neg hak]; simp
  · intro hn; exact absurd (mem_range.2 hk) hn

theorem wsum_dark {n s : ℕ} {w : ℕ → ℤ} {p : ℕ → ℕ} (hp : ∀ a, a < n → p (s + a) = 0) :
    wsum n w (fun a => (p (s + a) : ℤ)) = 0 := by
  unfold wsum
  refine sum_eq_zero fun a ha => ?_
  simp only; rw [hp a (mem_range.1 ha)]; simp

/-- **C257.** Two pictures, dark but for one pixel of value `v` in row `y`: at column `k` in the first, at column `l` in
the second. Where the centre of `k` is no farther from the centre of output pixel `x` than that of `l`, and `k` lies in
the window of `x`, the first result is no darker than the second. Sizes in a dyadic ratio, 8-bit, width only. -/
theorem C257_nearer_partial {W N P t : ℕ} {L : Lib} {r : ResamplingFunction} {store store' into into' : Image ℕ}
    (hr : Fades L r) (h : AcceptedCall W N r store into) (h' : AcceptedCall W N r store' into')
    (hb : ∀ v ∈ store.buffer, v ≤ 255) (hb' : ∀ v ∈ store'.buffer, v ≤ 255)
    (hs : SameShape store' store) (hi : SameShape into' into) (hd : DyadicRatio store.width into.width P t)
    (ha : r = .area → into.width ≤ store.width) (hne : store.width ≠ into.width) (hh : store.height = into.height) :
    ∃ qh out out', IsTable L r store.width into.width qh ∧
      genericResize W N (formatU8 N) L r store into = some (.ok (), out) ∧
      genericResize W N (formatU8 N) L r store' into' = some (.ok (), out') ∧
      ∀ (y x c k l v : ℕ), y < into.height → x < into.width → c < N →
        (qh.bound x).start ≤ k → k < (qh.bound x).start + (qh.bound x).size →
        |(k + 1 / 2 : ℚ) - centre store.width into.width x| ≤ |(l + 1 / 2 : ℚ) - centre store.width into.width x| →
        (∀ j, j < store.width → sample store.buffer (store.strideOf N) N y j c = some (if j = k then v else 0)) →
        (∀ j, j < store.width → sample store'.buffer (store.strideOf N) N y j c = some (if j = l then v else 0)) →
        ∃ a b, sample out.buffer (into.strideOf N) N y x c = some a ∧
          sample out'.buffer (into.strideOf N) N y x c = some b ∧ b ≤ a := by
  have hv := fading_averaging hr
  obtain ⟨qv, qh, out, out', tv, th, vv, vh, o1, o1', o⟩ := two_resizes (h.u8 (L := L) hv hb) (h'.u8 (L := L) hv hb') hs hi
  obtain ⟨_, _, c3, _⟩ := checkResize_ok.1 h.checked
  refine ⟨qh, out, out', th, o1, o1', fun y x c k l v hy hx hc hk1 hk2 hdist hp hp' => ?_⟩
  have e2 := o false y x c hy hx hc
  have e1 := o true y x c hy hx hc
  simp only [if_true, Bool.false_eq_true, if_false] at e1 e2
  refine ⟨_, _, e2, e1, ?_⟩
  unfold separable
  simp only
  rw [if_neg hne, if_neg hne]
  simp only [if_pos hh]
  have hin := vh.inside x hx
  set s := (qh.bound x).start with hsd
  set n := (qh.bound x).size with hnd
  have w0 := table_nonneg hv c3.1 h.small.1 (fun a => (h.area a).1) th x
  have px : ∀ a, a < n → pxD 0 store.buffer (store.strideOf N) N y (s + a) c = if a = k - s then v else 0 := by
    intro a ha'
    unfold pxD
    rw [hp (s + a) (by omega), Option.getD_some]
    by_cases hak : s + a = k
    · rw [if_pos hak, if_pos (by omega)]
    · rw [if_neg hak, if_neg (by omega)]
  have W1 : wsum n (fun k => qh.weight x k) (fun a => ((pxD 0 store.buffer (store.strideOf N) N y (s + a) c : ℕ) : ℤ)) =
      qh.weight x (k - s) * v :=
    wsum_single (p := fun j => pxD 0 store.buffer (store.strideOf N) N y j c) (by omega) px
  have W2 : wsum n (fun k => qh.weight x k) (fun a => ((pxD 0 store'.buffer (store.strideOf N) N y (s + a) c : ℕ) : ℤ)) ≤
      qh.weight x (k - s) * v := by
    by_cases hl : s ≤ l ∧ l < s + n
    · have px' : ∀ a, a < n → pxD 0 store'.buffer (store.strideOf N) N y (s + a) c = if a = l - s then v else 0 := by
        intro a ha'
        unfold pxD
        rw [hp' (s + a) (by omega), Option.getD_some]
        by_cases hal : s + a = l
        · rw [if_pos hal, if_pos (by omega)]
        · rw [if_neg hal, if_neg (by omega)]
      rw [wsum_single (p := fun j => pxD 0 store'.buffer (store.strideOf N) N y j c) (by omega) px']
      refine mul_le_mul_of_nonneg_right ?_ (by positivity)
      refine table_order hr hd (fun a => ⟨(h.area a).1, ha a⟩) th hx (by omega) (by omega) ?_
      rw [← hsd, show s + (k - s) = k by omega, show s + (l - s) = l by omega]
      exact hdist
    · have px' : ∀ a, a < n → pxD 0 store'.buffer (store.strideOf N) N y (s + a) c = 0 := by
        intro a ha'
        unfold pxD
        rw [hp' (s + a) (by omega), Option.getD_some, if_neg (by omega)]
      rw [wsum_dark (p := fun j => pxD 0 store'.buffer (store.strideOf N) N y j c) px']
      exact mul_nonneg (w0 _) (by positivity)
  show fixedRound 255 n _ (fun a => pxD 0 store'.buffer _ N y (s + a) c) ≤ fixedRound 255 n _ (fun a => pxD 0 store.buffer _ N y (s + a) c)
  unfold fixedRound
  rw [W1]
  refine clamp_mono _ ?_
  unfold fixRound
  refine Int.floor_le_floor ?_
  have : ((wsum n (fun k => qh.weight x k) (fun a => ((pxD 0 store'.buffer (store.strideOf N) N y (s + a) c : ℕ) : ℤ)) : ℤ) : ℚ) ≤
      ((qh.weight x (k - s) * v : ℤ) : ℚ) := by exact_mod_cast W2
  push_cast at this ⊢
  linarith

/-- Six pixels, the second or the first bright. -/
def Demo.row6a : Image ℕ := ⟨[0, 200, 0, 0, 0, 0], 1, 6, 1, 6, 8⟩
def Demo.row6b : Image ℕ := ⟨[0, 0, 0, 200, 0, 0], 1, 6, 1, 6, 8⟩
def Demo.row3z : Image ℕ := ⟨[0, 0, 0], 1, 3, 1, 3, 8⟩

example : ∃ qh, IsTable demoLib .quadric 6 3 qh ∧ ((qh.bound 0).start ≤ 1 ∧ 1 < (qh.bound 0).start + (qh.bound 0).size →
    ∃ (out out' : List ℕ) (a b : ℕ), sample out 3 1 0 0 0 = some a ∧ sample out' 3 1 0 0 0 = some b ∧ b ≤ a) := by
  obtain ⟨qh, out, out', t, _, _, o⟩ := C257_nearer_partial (L := demoLib) (r := .quadric) (W := 2 ^ 64) (N := 1) (P := 2) (t := 0)
    (store := Demo.row6a) (store' := Demo.row6b) (into := Demo.row3z) (into' := Demo.row3z) (Or.inl (by decide))
    (by constructor <;> decide) (by constructor <;> decide) (by decide) (by decide) (by unfold SameShape; decide)
    (by unfold SameShape; decide) ⟨by decide, by decide, by decide, by decide⟩ (by simp) (by decide) rfl
  refine ⟨qh, t, fun hw => ?_⟩
  obtain ⟨a, b, h1, h2, h3⟩ := o 0 0 0 1 3 200 (by decide) (by decide) (by decide) hw.1 hw.2
    (by unfold centre; norm_num [Demo.row6a, Demo.row3z])
    (fun j hj => by revert j; decide) (fun j hj => by revert j; decide)
  exact ⟨_, _, a, b, h1, h2, h3⟩

/-- **C257 is false of Bartlett**: its weights grow with the distance. Reducing three pixels to one, the middle pixel,
whose centre is that of the result, has no weight; the outer ones have half each. -/
theorem C257_bartlett_violated (L : Lib) :
    (∃ out, genericResize (2 ^ 64) 1 (formatU8 1) L .bartlett ⟨[0, 200, 0], 1, 3, 1, 3, 8⟩ ⟨[9], 1, 1, 1, 1, 8⟩ =
      some (.ok (), out) ∧ out.buffer = [0]) ∧
    ∃ out, genericResize (2 ^ 64) 1 (formatU8 1) L .bartlett ⟨[200, 0, 0], 1, 3, 1, 3, 8⟩ ⟨[9], 1, 1, 1, 1, 8⟩ =
      some (.ok (), out) ∧ out.buffer = [100] := by
  have e : ∀ s d, genericResize (2 ^ 64) 1 (formatU8 1) L .bartlett s d = genericResize (2 ^ 64) 1 (formatU8 1) demoLib .bartlett s d :=
    fun _ _ => rfl
  rw [e, e]
  have run : ∀ {s d : Image ℕ} {b : List ℕ}, (genericResize (2 ^ 64) 1 (formatU8 1) demoLib .bartlett s d).map (fun o => (o.1, o.2.buffer)) =
      some (.ok (), b) → ∃ out, genericResize (2 ^ 64) 1 (formatU8 1) demoLib .bartlett s d = some (.ok (), out) ∧ out.buffer = b := by
    intro s d b h
    obtain ⟨⟨a, out⟩, e1, e2⟩ := Option.map_eq_some_iff.1 h
    simp only [Prod.mk.injEq] at e2
    obtain ⟨rfl, e3⟩ := e2
    exact ⟨out, e1, e3⟩
  exact ⟨run (by decide +kernel), run (by decide +kernel)⟩

/-- **C257 across the edge of a window is false**: enlarging three pixels to six with `Quadric`, output pixel 3 has its
centre at 1.75. A bright pixel 0 (centre 0.5) shows there, a bright pixel 2 (centre 2.5, nearer) does not. -/
theorem C257_window_violated (L : Lib) :
    (∃ out, genericResize (2 ^ 64) 1 (formatU8 1) L .quadric ⟨[0, 0, 200], 1, 3, 1, 3, 8⟩ Demo.row6 =
      some (.ok (), out) ∧ sample out.buffer 6 1 0 3 0 = some 0) ∧
    ∃ out, genericResize (2 ^ 64) 1 (formatU8 1) L .quadric ⟨[200, 0, 0], 1, 3, 1, 3, 8⟩ Demo.row6 =
      some (.ok (), out) ∧ sample out.buffer 6 1 0 3 0 = some 9 := by
  have e : ∀ s d, genericResize (2 ^ 64) 1 (formatU8 1) L .quadric s d = genericResize (2 ^ 64) 1 (formatU8 1) demoLib .quadric s d :=
    fun _ _ => rfl
  rw [e, e]
  have run : ∀ {s d : Image ℕ} {v : ℕ}, (genericResize (2 ^ 64) 1 (formatU8 1) demoLib .quadric s d).map (fun o => (o.1, sample o.2.buffer 6 1 0 3 0)) =
      some (.ok (), some v) → ∃ out, genericResize (2 ^ 64) 1 (formatU8 1) demoLib .quadric s d = some (.ok (), out) ∧ sample out.buffer 6 1 0 3 0 = some v := by
    intro s d b h
    obtain ⟨⟨a, out⟩, e1, e2⟩ := Option.map_eq_some_iff.1 h
    simp only [Prod.mk.injEq] at e2
    obtain ⟨rfl, e3⟩ := e2
    exact ⟨out, e1, e3⟩
  exact ⟨run (by decide +kernel), run (by decide +kernel)⟩

end PicScale
