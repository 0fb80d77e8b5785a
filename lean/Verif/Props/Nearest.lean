import Verif.Lemmas.Nearest

/-! Property theorems about the Nearest sampler on buffers: C09, C10, C12. -/

namespace PicScale

open Spec

variable {α : Type}

/-- **C09.** For source dimensions up to `2^24` the Nearest loop reads inside the source whatever the
destination size: it completes (in the model an out-of-bounds slice is `none`), and keeps the length
of the destination buffer. The source buffer needs only the elements its dimensions promise. -/
theorem C09_no_oob_partial (N sw sh dw dh : ℕ) (src dst : List α) (hN : 1 ≤ N)
    (hw : 1 ≤ sw ∧ sw ≤ 2 ^ 24) (hh : 1 ≤ sh ∧ sh ≤ 2 ^ 24) (hd : 1 ≤ dw)
    (hsrc : sw * sh * N ≤ src.length) :
    ∃ r, resizeNearest F32.rnd N src sw sh dst dw dh = some r ∧ r.length = dst.length := by
  obtain ⟨r, e, l, _⟩ := resizeNearest_spec (dh := dh) (dst := dst) RoundOK.rnd hN hw.1 hw.2 hh.1 hh.2 hd hsrc
  exact ⟨r, e, l⟩

example : ∃ r, resizeNearest F32.rnd 4 (List.replicate 24 (7 : ℕ)) 3 2 (List.replicate 400 0) 10 10 = some r ∧
    r.length = 400 := by
  obtain ⟨r, h1, h2⟩ := C09_no_oob_partial 4 3 2 10 10 (List.replicate 24 (7 : ℕ)) (List.replicate 400 0)
    (by norm_num) (by norm_num) (by norm_num) (by norm_num) (by rw [List.length_replicate])
  exact ⟨r, h1, by rw [h2, List.length_replicate]⟩

/-- **C09 fails beyond `2^24`**: a source of width 16777219 stretched to width `2^25`: the last
destination column computes source column 16777220, outside the image (in the code: a panic). -/
theorem C09_violated : ¬ nearestIndex F32.rnd 16777219 (2 ^ 25) (2 ^ 25 - 1) < 16777219 := by
  decide +kernel

/-- The consequence: that column makes the row loop fail, for every one-row source of that width. -/
theorem C09_violated_panics (src row : List ℕ) (hs : src.length = 16777219) (hr : row.length = 2 ^ 25) :
    nearestRow F32.rnd 1 src 16777219 1 (2 ^ 25) 1 0 row = none := by
  have hidx : nearestIndex F32.rnd 16777219 (2 ^ 25) (2 ^ 25 - 1) = 16777220 := by decide +kernel
  have hy : nearestIndex F32.rnd 1 1 0 = 0 := by decide +kernel
  -- a failing element makes `updChunks` fail
  have key : ∀ (f : List ℕ → ℕ → Option (List ℕ)) (xs : List ℕ) (buf : List ℕ) (z : ℕ),
      (∀ b, f b z = none) → z ∈ xs → xs.length ≤ buf.length → updChunks 1 f buf xs = none := by
    intro f xs
    induction xs with
    | nil => intro buf z _ hz; simp at hz
    | cons x xs ih =>
      intro buf z hf hz hl
      simp only [List.length_cons] at hl
      unfold updChunks
      rw [if_neg (by omega)]
      rcases List.mem_cons.1 hz with rfl | hz
      · simp [hf]
      · have := ih (buf.drop 1) z hf hz (by simp; omega)
        cases f (buf.take 1) x with
        | none => rfl
        | some c => rw [Option.bind_eq_bind, Option.bind_some, this]; rfl
  unfold nearestRow
  refine key _ _ _ (2 ^ 25 - 1) ?_ ?_ ?_
  · intro b
    simp only [hidx, hy, slice?, hs]
    rw [if_neg (by norm_num)]
    rfl
  · rw [List.mem_range, hr]; norm_num
  · simp [hr]

/-- **C10.** Nearest on packed images: there are a row map and a column map, both monotone, into the
source, such that every destination pixel is the whole source pixel they designate. The column map
depends only on the widths, the row map only on the heights, and nothing else is written. -/
theorem C10_whole_pixels (N sw sh dw dh : ℕ) (src dst : List α) (hN : 1 ≤ N)
    (hw : 1 ≤ sw ∧ sw ≤ 2 ^ 24) (hh : 1 ≤ sh ∧ sh ≤ 2 ^ 24) (hd : 1 ≤ dw) (hdst : dst.length = dh * (dw * N))
    (hsrc : src.length = sh * (sw * N)) :
    ∃ r, resizeNearest F32.rnd N src sw sh dst dw dh = some r ∧
      Monotone (nearestIndex F32.rnd sw dw) ∧ Monotone (nearestIndex F32.rnd sh dh) ∧
      (∀ x, nearestIndex F32.rnd sw dw x < sw) ∧ (∀ y, nearestIndex F32.rnd sh dh y < sh) ∧
      ∀ y x c, y < dh → x < dw → c < N →
        sample r (dw * N) N y x c =
          sample src (sw * N) N (nearestIndex F32.rnd sh dh y) (nearestIndex F32.rnd sw dw x) c := by
  have hpos : 0 < dw * N := Nat.mul_pos (by omega) (by omega)
  obtain ⟨r, e, l, g, _⟩ := resizeNearest_spec (dh := dh) (dst := dst) RoundOK.rnd hN hw.1 hw.2 hh.1 hh.2 hd
    (by rw [hsrc]; exact le_of_eq (by ring))
  refine ⟨r, e, nearestIndex_mono RoundOK.rnd _ _, nearestIndex_mono RoundOK.rnd _ _,
    nearestIndex_lt RoundOK.rnd hw.1 hw.2, nearestIndex_lt RoundOK.rnd hh.1 hh.2, ?_⟩
  intro y x c hy hx hc
  unfold sample
  exact g y x c (by rw [hdst, Nat.mul_div_cancel _ hpos]; exact hy) hx hc

/-- A 3×2 grey image enlarged to 6×2. -/
example : resizeNearest F32.rnd 1 [10, 20, 30, 40, 50, 60] 3 2 (List.replicate 12 0) 6 2 =
    some [10, 10, 10, 20, 20, 30, 40, 40, 40, 50, 50, 60] := by decide +kernel

/-- **C12, within one pixel.** For sizes up to `2^20` the chosen source coordinate is the one under the
destination pixel centre or the one before it. -/
theorem C12_nearest_partial (src dst x : ℕ) (h1 : 1 ≤ src) (h2 : src ≤ 2 ^ 20) (h3 : dst ≤ 2 ^ 20)
    (hx : x < dst) :
    (nearestIndex F32.rnd src dst x : ℤ) ≤ ⌊((x : ℚ) + 1 / 2) * src / dst⌋ ∧
      ⌊((x : ℚ) + 1 / 2) * src / dst⌋ ≤ (nearestIndex F32.rnd src dst x : ℤ) + 1 :=
  nearestIndex_near h1 h2 h3 hx

example : nearestIndex F32.rnd 100 300 150 = 49 := by decide +kernel

/-- **C12 fails**: doubling two columns, destination column 2 has its centre at 1.25, inside source
column 1 and away from its border, but column 0 is taken: the result is 0,0,0,1. -/
theorem C12_violated :
    (1 : ℚ) < (2 + 1 / 2) * 2 / 4 ∧ ((2 : ℚ) + 1 / 2) * 2 / 4 < 2 ∧ nearestIndex F32.rnd 2 4 2 = 0 ∧
      resizeNearest F32.rnd 1 [10, 20] 2 1 [0, 0, 0, 0] 4 1 = some [10, 10, 10, 20] := by
  refine ⟨by norm_num, by norm_num, by decide +kernel, by decide +kernel⟩

end PicScale
