import Verif.Lemmas.Kaiser

/-!
Property theorem C262: the series of the Kaiser window.
-/

namespace PicScale

open F32 Spec

/-- **C262.** For every distance the series of the Kaiser window (in binary32, whatever square root) ends after at most
sixteen terms; its value lies in `[0, 1]`, is at least `1/92` inside the window and 0 outside, and does not grow with the
distance. -/
theorem C262_kaiser {sqrt : ℚ → ℚ} (h : SqrtLike sqrt) :
    ∃ w : ℚ → ℚ, (∀ x, 0 ≤ x → ∀ fuel, 17 ≤ fuel → kaiserWindow rnd sqrt fuel x = some (w x)) ∧
      (∀ x, 0 ≤ x → 0 ≤ w x ∧ w x ≤ 1) ∧ (∀ x, 0 ≤ x → x ≤ 1 → 1 / 92 ≤ w x) ∧ (∀ x, 1 < x → w x = 0) ∧
      ∀ x y, 0 ≤ x → x ≤ y → w y ≤ w x := by
  have hd := RoundOK.rnd
  obtain ⟨b, hb, b1, b2, b3⟩ := bessel_top
  have hb17 : besselI0 rnd 17 (rnd (633 / 100)) = some b := by
    have : (besselI0 rnd 17 (rnd (633 / 100))).isSome := by decide +kernel
    obtain ⟨c, e⟩ := Option.isSome_iff_exists.1 this
    rw [e, ← besselI0_fuel (by norm_num : 17 ≤ 24) e, hb]
  have i0 : 0 ≤ rnd (1 / b) := hd.nonneg (by positivity)
  have key : ∀ x, 0 ≤ x → ∃ w, kaiserWindow rnd sqrt 17 x = some w ∧ 0 ≤ w ∧ w ≤ 1 ∧ (x ≤ 1 → 1 / 92 ≤ w) ∧ (1 < x → w = 0) := by
    intro x h0
    by_cases c : 1 < x
    · exact ⟨0, kaiserWindow_outside c, le_refl _, zero_le_one, fun h => absurd h (not_le.2 c), fun _ => rfl⟩
    · obtain ⟨v, _, v1, v2, ev⟩ := kaiserWindow_inside h hb17 h0 (not_lt.1 c)
      refine ⟨_, ev, hd.nonneg (mul_nonneg (by linarith) i0), le_trans (hd.mono ?_) b2, fun _ => le_trans b3 (hd.mono ?_),
        fun h => absurd h c⟩
      · exact mul_le_mul_of_nonneg_right v2 i0
      · exact mul_le_mul_of_nonneg_right v1 i0
  have get : ∀ x, 0 ≤ x → kaiserWindow rnd sqrt 17 x = some ((kaiserWindow rnd sqrt 17 x).getD 0) := by
    intro x h0
    obtain ⟨w, e, _⟩ := key x h0
    rw [e]; rfl
  refine ⟨fun x => (kaiserWindow rnd sqrt 17 x).getD 0, fun x h0 fuel hf => kaiserWindow_fuel hf (get x h0), fun x h0 => ?_,
    fun x h0 h1 => ?_, fun x h1 => ?_, fun x y h0 hxy => ?_⟩
  · obtain ⟨w, e, a, b, _⟩ := key x h0
    dsimp only; rw [e]; exact ⟨a, b⟩
  · obtain ⟨w, e, _, _, a, _⟩ := key x h0
    dsimp only; rw [e]; exact a h1
  · simp only [kaiserWindow_outside h1, Option.getD_some]
  · exact kaiserWindow_mono h h0 hxy (get x h0) (get y (le_trans h0 hxy))

/-- A square root rounded down to 24 binary digits. -/
def Demo.sqrt24 (v : ℚ) : ℚ := (Nat.sqrt ⌊v * 2 ^ 48⌋.toNat : ℚ) / 2 ^ 24

theorem Demo.sqrt24_like : SqrtLike Demo.sqrt24 where
  range := by
    intro v _ h1
    unfold Demo.sqrt24
    refine ⟨by positivity, ?_⟩
    rw [div_le_one (by norm_num)]
    have a : ⌊v * 2 ^ 48⌋ ≤ 2 ^ 48 := by
      rw [← Int.cast_le (R := ℚ)]
      refine le_trans (Int.floor_le _) ?_
      push_cast
      nlinarith
    have : Nat.sqrt ⌊v * 2 ^ 48⌋.toNat ≤ 2 ^ 24 := by
      refine le_trans (Nat.sqrt_le_sqrt (show ⌊v * 2 ^ 48⌋.toNat ≤ 2 ^ 24 * 2 ^ 24 by omega)) (le_of_eq (Nat.sqrt_eq _))
    exact_mod_cast this
  mono := by
    intro v w _ hvw _
    unfold Demo.sqrt24
    refine div_le_div_of_nonneg_right ?_ (by norm_num)
    exact_mod_cast Nat.sqrt_le_sqrt (Int.toNat_le_toNat (Int.floor_le_floor (by nlinarith)))

/-- Sixteen terms are needed at the centre of the window, none at its edge. -/
example : (besselI0 rnd 16 (rnd (633 / 100))).isNone ∧ besselI0 rnd 1 0 = some 1 ∧
    (kaiserWindow rnd Demo.sqrt24 17 (1 / 2)).map (fun w => decide (46 / 100 < w ∧ w < 47 / 100)) = some true := by
  decide +kernel

/-- A mathematical library within the bounds: crude cosine and exponential, the Kaiser window of the code. -/
def Demo.libm : Lib where
  sin := fun _ => 0
  cos := fun x => max (-1) (1 - x * x / 2)
  exp := fun x => if x ≤ 0 then 1 / (1 - x) else 1 + x
  sqrt := Demo.sqrt24
  j1OverX := fun _ => 1 / 2
  kaiser := fun x => (kaiserWindow rnd Demo.sqrt24 17 x).getD 0
  pi := rnd (355 / 113)
  sqrt2 := rnd (1414 / 1000)

theorem Demo.libmBounds : LibmBounds Demo.libm where
  cos := fun x => ⟨le_max_left _ _, max_le (by norm_num) (by nlinarith [mul_self_nonneg x])⟩
  exp := by
    intro x
    show 0 ≤ if x ≤ 0 then 1 / (1 - x) else 1 + x
    split_ifs with h
    · exact div_nonneg zero_le_one (by linarith)
    · linarith
  sqrt := fun x => by unfold Demo.libm Demo.sqrt24; simp only; positivity
  root := Demo.sqrt24_like
  kaiser := fun x h0 => by
    obtain ⟨w, e, _⟩ := C262_kaiser Demo.sqrt24_like
    exact ⟨17, by show kaiserWindow rnd Demo.sqrt24 17 x = some ((kaiserWindow rnd Demo.sqrt24 17 x).getD 0); rw [e x h0 17 le_rfl]; rfl⟩

end PicScale
