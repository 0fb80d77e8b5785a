import Verif.Lemmas.AlphaResize
import Verif.Lemmas.X86Resize

/-!
A resize with alpha is: premultiply (if needed), plain resize, unpremultiply.
-/

namespace PicScale

open Spec

variable {S : Type}

/-- The unrequested mode is the plain resize. -/
theorem withAlpha_false {W N : ℕ} {F : Format S} {A : AlphaOps S} {L : Lib} {r : ResamplingFunction} {store into : Image S} :
    genericResizeWithAlpha W N F A L r store into false = genericResize W N F L r store into := by
  unfold genericResizeWithAlpha genericResize
  cases checkResize W N F.shouldHaveBitDepth store into with
  | error e => rfl
  | ok u =>
    simp only
    by_cases q1 : store.width = into.width ∧ store.height = into.height
    · simp only [if_pos q1]
    · simp only [if_neg q1]
      by_cases q2 : r = .nearest
      · simp only [if_pos q2]
      · simp [if_neg q2, premultiplied]

/-- A convolving resize with alpha out of its three steps. -/
theorem withAlpha_compose {W N : ℕ} {F : Format S} {A : AlphaOps S} {L : Lib} {r : ResamplingFunction}
    {store into work mid out : Image S}
    (hchk : checkResize W N F.shouldHaveBitDepth store into = .ok ()) (hr : r ≠ .nearest)
    (hne : store.width ≠ into.width ∨ store.height ≠ into.height)
    (hw : premultiplied W N F A true store into = some work)
    (hw1 : work.width = store.width) (hw2 : work.height = store.height)
    (hm : genericResize W N F L r work into = some (.ok (), mid)) (ho : A.unpremultiply mid = some out) :
    genericResizeWithAlpha W N F A L r store into true = some (.ok (), out) := by
  have hcv : convolve W N F (tableOf L r) work into = some mid := by
    unfold genericResize at hm
    cases hc : checkResize W N F.shouldHaveBitDepth work into with
    | error e => rw [hc] at hm; simp at hm
    | ok u =>
      rw [hc] at hm
      simp only at hm
      rw [if_neg (by rw [hw1, hw2]; tauto), if_neg hr] at hm
      rcases h : convolve W N F (tableOf L r) work into with _ | d
      · rw [h] at hm; simp at hm
      · rw [h] at hm
        simp only [Option.bind_eq_bind, Option.bind_some, Option.some.injEq, Prod.mk.injEq, true_and] at hm
        rw [hm]
  unfold genericResizeWithAlpha
  rw [hchk]
  simp only
  rw [if_neg (by tauto), if_neg hr, hw]
  simp only [Option.bind_eq_bind, Option.bind_some]
  rw [hcv]
  simp only [Option.bind_some, if_true]
  rw [ho]
  rfl

theorem overflow_iff {W w h c : ℕ} : checkImageSizeOverflow W w h c = false ↔ w * c < W ∧ h * (w * c) < W := by
  unfold checkImageSizeOverflow overflowingMul
  dsimp only
  by_cases h1 : W ≤ w * c
  · rw [if_pos (by simpa using h1)]
    constructor
    · intro h; exact absurd h (by simp)
    · intro h; omega
  · rw [if_neg (by simpa using h1)]
    rw [decide_eq_false_iff_not, Nat.mod_eq_of_lt (by omega)]
    omega

theorem fits_of_overflow {W w h c : ℕ} (ho : checkImageSizeOverflow W w h c = false) : w * h * c < W := by
  have := (overflow_iff.1 ho).2
  calc w * h * c = h * (w * c) := by ring
    _ < W := this

/-- The temporary packed copy passes the checks of the resize if the original does. -/
theorem check_packed {W N : ℕ} {b : Bool} {store into : Image S} {buf : List S} {bd : ℕ}
    (h : checkResize W N b store into = .ok ()) (hch : store.channels = N)
    (hl : buf.length = store.width * store.height * N) :
    checkResize W N b (Image.mk buf N store.width store.height (store.width * N) bd) into = .ok () := by
  obtain ⟨c1, _, c3, c4, c5, c6⟩ := checkResize_ok.1 h
  rw [hch] at c4 c5
  exact checkResize_ok.2 ⟨c1, packed_validate hl, c3, c4, c5, c6⟩

theorem HKernel.value_le (k : HKernel) (N : ℕ) (q : FilterWeights ℤ) (x c : ℕ) (P : ℕ → ℕ) : k.value N q x c P ≤ 255 := by
  have hp : ∀ v, packu v ≤ 255 := by intro v; unfold packu; omega
  cases k
  · exact clamp_le _ _
  · exact hp _
  · exact clamp_le _ _
  · exact clamp_le _ _
  · exact hp _
  · exact hp _
  · exact hp _
  · exact clamp_le _ _
  · exact clamp_le _ _

end PicScale
