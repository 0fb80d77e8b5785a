import Verif.Lemmas.Weights
import Verif.Model.Nearest
import Verif.Spec

namespace PicScale

variable {ρ : ℚ → ℚ} {α : Type}

theorem nearestIndex_lt (h : RoundOK ρ) {src dst : ℕ} (h1 : 1 ≤ src) (h2 : src ≤ 2 ^ 24) (i : ℕ) :
    nearestIndex ρ src dst i < src := by
  unfold nearestIndex
  simp only
  have e : ρ (ρ (src : ℚ) - 1) = ((src - 1 : ℕ) : ℚ) := by
    rw [h.nat h2, ← h.nat (n := src - 1) (by omega)]
    congr 1
    push_cast [h1]; ring
  rw [e]
  have hm : max (min (ρ (ρ (ρ (ρ (i : ℚ) + 1 / 2) * ρ (ρ (src : ℚ) / ρ (dst : ℚ))) - 1 / 2)) ((src - 1 : ℕ) : ℚ)) 0
      ≤ ((src - 1 : ℕ) : ℚ) := max_le (min_le_right _ _) (by positivity)
  have := Int.floor_mono hm
  rw [Int.floor_natCast] at this
  unfold F32.toUsize; omega

theorem nearestIndex_mono (h : RoundOK ρ) (src dst : ℕ) : Monotone (nearestIndex ρ src dst) := by
  intro i j hij
  unfold nearestIndex F32.toUsize
  simp only
  have hs : 0 ≤ ρ (ρ (src : ℚ) / ρ (dst : ℚ)) := wScale_nonneg h
  have h1 : ρ (ρ (i : ℚ) + 1 / 2) ≤ ρ (ρ (j : ℚ) + 1 / 2) := by
    apply h.mono
    have := h.mono (show (i : ℚ) ≤ j by exact_mod_cast hij)
    linarith
  have h2 := h.mono (mul_le_mul_of_nonneg_right h1 hs)
  have h3 := h.mono (sub_le_sub_right h2 (1 / 2))
  have h4 := Int.floor_mono (max_le_max_right (0 : ℚ) (min_le_min_right (ρ (ρ (src : ℚ) - 1)) h3))
  omega

theorem resizeNearest_spec (h : RoundOK ρ) {N sw sh dw dh : ℕ} {src dst : List α} (hN : 1 ≤ N)
    (hw1 : 1 ≤ sw) (hw2 : sw ≤ 2 ^ 24) (hh1 : 1 ≤ sh) (hh2 : sh ≤ 2 ^ 24) (hdw : 1 ≤ dw)
    (hsrc : sw * sh * N ≤ src.length) :
    ∃ r, resizeNearest ρ N src sw sh dst dw dh = some r ∧ r.length = dst.length ∧
      (∀ y x c, y < dst.length / (dw * N) → x < dw → c < N →
        r[y * (dw * N) + x * N + c]? =
          src[nearestIndex ρ sh dh y * (sw * N) + nearestIndex ρ sw dw x * N + c]?) ∧
      (∀ p, dst.length / (dw * N) * (dw * N) ≤ p → r[p]? = dst[p]?) := by
  have hslice : ∀ x y, nearestIndex ρ sh dh y * (sw * N) + nearestIndex ρ sw dw x * N + N ≤ src.length := by
    intro x y
    have a := nearestIndex_lt h (dst := dw) hw1 hw2 x
    have b := nearestIndex_lt h (dst := dh) hh1 hh2 y
    have a' : (nearestIndex ρ sw dw x + 1) * N ≤ sw * N := Nat.mul_le_mul_right _ a
    have b' : (nearestIndex ρ sh dh y + 1) * (sw * N) ≤ sh * (sw * N) := Nat.mul_le_mul_right _ b
    have : sh * (sw * N) = sw * sh * N := by ring
    rw [Nat.add_mul] at a' b'
    omega
  have hrow : ∀ (y : ℕ) (row : List α), row.length = dw * N →
      ∃ r, nearestRow ρ N src sw sh dw dh y row = some r ∧ r.length = dw * N ∧
        ∀ x c, x < dw → c < N → r[x * N + c]? =
          src[nearestIndex ρ sh dh y * (sw * N) + nearestIndex ρ sw dw x * N + c]? := by
    intro y row hl
    have hdiv : row.length / N = dw := by rw [hl]; exact Nat.mul_div_cancel _ (by omega)
    obtain ⟨r, e, l, g, _⟩ := updChunks_spec N (fun px x => do
        let sx := nearestIndex ρ sw dw x
        let sy := nearestIndex ρ sh dh y
        let offset := sy * (sw * N) + sx * N
        let s ← slice? src offset (offset + N)
        some (overwrite s px)) (List.range (row.length / N)) row
      (fun x => overwrite ((src.drop (nearestIndex ρ sh dh y * (sw * N) + nearestIndex ρ sw dw x * N)).take N)
        ((row.drop (x * N)).take N))
      (by rw [List.length_range, hdiv, hl])
      (by
        intro i x hx
        have hi : i < row.length / N := by
          by_contra hc
          rw [List.getElem?_eq_none (by simpa using hc)] at hx; simp at hx
        rw [List.getElem?_range hi] at hx
        obtain rfl := Option.some.inj hx
        simp only
        rw [slice?_eq_some (by omega) (hslice i y)]
        simp)
      (by
        intro i hi
        rw [List.length_range] at hi
        rw [overwrite_length]
        exact chunk_length hi)
    refine ⟨r, e, by rw [l, hl], ?_⟩
    intro x c hx hc
    rw [g x c (by rw [List.length_range, hdiv]; exact hx) hc]
    have hx' : x < row.length / N := by rw [hdiv]; exact hx
    rw [overwrite_get _ _ _ (by rw [chunk_length hx']; exact hc)]
    have := hslice x y
    rw [if_pos (by simp; omega), List.getElem?_take, if_pos hc, List.getElem?_drop]
  choose! R hR1 hR2 hR3 using hrow
  obtain ⟨r, e, l, g, t⟩ := updChunks_spec (dw * N) (fun row y => nearestRow ρ N src sw sh dw dh y row)
    (List.range (dst.length / (dw * N))) dst
    (fun y => R y ((dst.drop (y * (dw * N))).take (dw * N)))
    (by rw [List.length_range]; exact Nat.div_mul_le_self _ _)
    (by
      intro i x hx
      have hi : i < dst.length / (dw * N) := by
        by_contra hc
        rw [List.getElem?_eq_none (by simpa using hc)] at hx; simp at hx
      rw [List.getElem?_range hi] at hx
      obtain rfl := Option.some.inj hx
      exact hR1 _ _ (chunk_length hi))
    (by
      intro i hi
      rw [List.length_range] at hi
      exact hR2 _ _ (chunk_length hi))
  refine ⟨r, e, l, ?_, by simpa using t⟩
  intro y x c hy hx hc
  have hxc : x * N + c < dw * N := by
    have : (x + 1) * N ≤ dw * N := Nat.mul_le_mul_right _ hx
    rw [Nat.add_mul] at this; omega
  rw [Nat.add_assoc, g y (x * N + c) (by rw [List.length_range]; exact hy) hxc]
  exact hR3 _ _ (chunk_length hy) x c hx hc

/-- binary32: the index differs from the ideal one by at most one (downwards). -/
theorem nearestIndex_near {src dst x : ℕ} (h1 : 1 ≤ src) (h2 : src ≤ 2 ^ 20) (h3 : dst ≤ 2 ^ 20)
    (hx : x < dst) :
    let ideal := ⌊((x : ℚ) + 1 / 2) * src / dst⌋
    (nearestIndex F32.rnd src dst x : ℤ) ≤ ideal ∧ ideal ≤ (nearestIndex F32.rnd src dst x : ℤ) + 1 := by
  intro ideal
  have hd0 : (0 : ℚ) < dst := by exact_mod_cast (by omega : 0 < dst)
  have hdq : (dst : ℚ) ≤ 2 ^ 20 := by exact_mod_cast h3
  have hsq : (src : ℚ) ≤ 2 ^ 20 := by exact_mod_cast h2
  have hs1 : (1 : ℚ) ≤ src := by exact_mod_cast h1
  have hxd : (x : ℚ) + 1 ≤ dst := by exact_mod_cast hx
  have hx0 : (0 : ℚ) ≤ x := by positivity
  set t : ℚ := ((x : ℚ) + 1 / 2) * src / dst with ht
  have ht0 : 0 ≤ t := by positivity
  have hts : t < src := by rw [ht, div_lt_iff₀ hd0]; nlinarith
  unfold nearestIndex
  simp only
  rw [RoundOK.rnd.nat (n := src) (by omega), RoundOK.rnd.nat (n := dst) (by omega),
    RoundOK.rnd.nat (n := x) (by omega)]
  have e0 : F32.rnd ((x : ℚ) + 1 / 2) = x + 1 / 2 := by
    have := RoundOK.rnd.half (2 * x + 1) (by rw [abs_of_nonneg (by omega)]; omega)
    have e : (((2 * x + 1 : ℤ)) : ℚ) / 2 = x + 1 / 2 := by push_cast; ring
    rwa [e] at this
  have e1 : F32.rnd ((src : ℚ) - 1) = ((src - 1 : ℕ) : ℚ) := by
    have := RoundOK.rnd.nat (n := src - 1) (by omega)
    rw [← this]; congr 1; push_cast [h1]; ring
  rw [e0, e1]
  set q : ℚ := (src : ℚ) / dst with hq
  have hq0 : 0 < q := by positivity
  have er := F32.rnd_err_le q
  set s := F32.rnd q with hs
  rw [abs_of_pos hq0] at er
  have hs0 : 0 ≤ s := F32.rnd_nonneg hq0.le
  have htq : t = ((x : ℚ) + 1 / 2) * q := by rw [ht, hq]; ring
  -- p = (x+1/2)*s
  set p : ℚ := ((x : ℚ) + 1 / 2) * s with hp
  have hpt : |p - t| ≤ t / 2 ^ 24 + 2 ^ 20 / 2 ^ 150 := by
    have : p - t = ((x : ℚ) + 1 / 2) * (s - q) := by rw [hp, htq]; ring
    rw [this, abs_mul, abs_of_nonneg (by positivity)]
    calc ((x : ℚ) + 1 / 2) * |s - q| ≤ ((x : ℚ) + 1 / 2) * (q / 2 ^ 24 + 1 / 2 ^ 150) :=
          mul_le_mul_of_nonneg_left er (by positivity)
      _ = t / 2 ^ 24 + ((x : ℚ) + 1 / 2) * (1 / 2 ^ 150) := by rw [htq]; ring
      _ ≤ _ := by
          have : ((x : ℚ) + 1 / 2) * (1 / 2 ^ 150) ≤ 2 ^ 20 * (1 / 2 ^ 150) :=
            mul_le_mul_of_nonneg_right (by linarith) (by positivity)
          linarith
  have hp1 : |p - t| ≤ 1 / 10 := by
    refine le_trans hpt ?_
    have : t / 2 ^ 24 ≤ 1 / 16 := by
      rw [div_le_div_iff₀ (by positivity) (by positivity)]; nlinarith
    norm_num at this ⊢; linarith
  have hp0 : 0 ≤ p := by positivity
  have er2 := F32.rnd_err_le p
  rw [abs_of_nonneg hp0] at er2
  rw [abs_le] at hp1
  have hpe : |F32.rnd p - p| ≤ 1 / 14 := by
    refine le_trans er2 ?_
    have : p / 2 ^ 24 ≤ 9 / 128 := by
      rw [div_le_div_iff₀ (by positivity) (by positivity)]; nlinarith [hp1.2]
    norm_num at this ⊢; linarith
  rw [abs_le] at hpe
  have er3 := F32.rnd_err_le (F32.rnd p - 1 / 2)
  set v := F32.rnd (F32.rnd p - 1 / 2) with hv
  have hve : |v - (F32.rnd p - 1 / 2)| ≤ 1 / 14 := by
    refine le_trans er3 ?_
    have hb : |F32.rnd p - 1 / 2| ≤ 2 ^ 20 + 1 := by
      rw [abs_le]; constructor <;> linarith [hp1.1, hp1.2, hpe.1, hpe.2]
    have : |F32.rnd p - 1 / 2| / 2 ^ 24 ≤ 9 / 128 := by
      rw [div_le_div_iff₀ (by positivity) (by positivity)]; nlinarith
    norm_num at this ⊢; linarith
  rw [abs_le] at hve
  have v1 : t - 3 / 4 ≤ v := by linarith [hp1.1, hpe.1, hve.1]
  have v2 : v ≤ t - 1 / 4 := by linarith [hp1.2, hpe.2, hve.2]
  have hfl := Int.floor_le t
  have hfl2 := Int.lt_floor_add_one t
  set w : ℚ := max (min v ((src - 1 : ℕ) : ℚ)) 0 with hw
  have hw0 : 0 ≤ w := le_max_right _ _
  have hidx : ((F32.toUsize ⌊w⌋ : ℕ) : ℤ) = ⌊w⌋ := by
    have := Int.floor_nonneg.2 hw0
    unfold F32.toUsize; omega
  rw [hidx]
  have hcl : ((src - 1 : ℕ) : ℚ) = (src : ℚ) - 1 := by push_cast [h1]; ring
  constructor
  · refine Int.floor_mono ?_
    rw [hw]
    exact max_le (le_trans (min_le_left _ _) (by linarith)) ht0
  · have hlt : ideal < ⌊w⌋ + 2 := by
      have : t - 1 ≤ w := by
        rw [hw, hcl]
        exact le_trans (le_min (by linarith) (by linarith)) (le_max_left _ _)
      have h5 := Int.lt_floor_add_one w
      show ⌊t⌋ < _
      rw [Int.floor_lt]; push_cast; linarith
    omega

end PicScale
