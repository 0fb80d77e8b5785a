import Verif.Lemmas.Avx512Alpha
import Verif.Lemmas.AlphaCheck

/-!
The AVX-512 alpha check adds up the whole chunks of 16 pixels of each row.
-/

namespace PicScale

open Finset Spec

/-- A row sum without vector code. -/
def plainRowSum (first : ℕ) (row : List ℕ) : ℤ := i32 (alphaSum first row : ℤ)

theorem plainRowSum_ok (B : ℕ) : RowSumOK B 1 plainRowSum := fun _ _ _ _ _ => ⟨_, rfl, le_rfl, by omega⟩

theorem bmod_eq_iff {M : ℕ} {a b : ℤ} : a.bmod M = b.bmod M ↔ (M : ℤ) ∣ a - b := by
  rw [Int.bmod_eq_bmod_iff_bmod_sub_eq_zero, ← Int.dvd_iff_bmod_eq_zero]

theorem bmod_add4 {M : ℕ} {a b c d a' b' c' d' : ℤ} (ha : a.bmod M = a'.bmod M) (hb : b.bmod M = b'.bmod M)
    (hc : c.bmod M = c'.bmod M) (hd : d.bmod M = d'.bmod M) :
    (a + b + c + d).bmod M = (a' + b' + c' + d').bmod M := by
  rw [bmod_eq_iff] at *
  have := Int.dvd_add (Int.dvd_add (Int.dvd_add ha hb) hc) hd
  rwa [show a + b + c + d - (a' + b' + c' + d') = a - a' + (b - b') + (c - c') + (d - d') by ring]

theorem i32_add4 {a b c d a' b' c' d' : ℤ} (ha : i32 a = i32 a') (hb : i32 b = i32 b') (hc : i32 c = i32 c')
    (hd : i32 d = i32 d') : i32 (a + b + c + d) = i32 (a' + b' + c' + d') := bmod_add4 ha hb hc hd

theorem i32_idem (a : ℤ) : i32 (i32 a) = i32 a := Int.bmod_bmod

theorem lanes32_sum {r : Reg} {T : ℕ} (h : HasSum32 r T) : i32 (lanes32 r).sum = i32 (T : ℤ) := by
  obtain ⟨f, rfl, hf⟩ := h
  rw [← hf]
  have e : lanes32 (lanes4 f) = [i32 (f 0), i32 (f 1), i32 (f 2), i32 (f 3)] := by
    unfold lanes4
    rw [lanes32_ofLanes32, List.map_map]
    rfl
  rw [e]
  simp only [List.sum_cons, List.sum_nil, add_zero, ← add_assoc]
  exact i32_add4 (i32_idem _) (i32_idem _) (i32_idem _) (i32_idem _)

theorem avx512AlphaRow8_eq {first : ℕ} {row : List ℕ} (hf : first ≤ 255) (hb : ∀ v ∈ row, v ≤ 255) :
    avx512AlphaRow8 first row = plainRowSum first (row.take (row.length / 64 * 64)) := by
  unfold avx512AlphaRow8
  dsimp only
  have s1 := fold_alphaSum (σ := Reg × Reg × Reg × Reg)
    (HS := fun s T => ∃ U V X Y, HasSum32 s.1 U ∧ HasSum32 s.2.1 V ∧ HasSum32 s.2.2.1 X ∧ HasSum32 s.2.2.2 Y ∧ U + V + X + Y = T)
    (B := 255) (m := 16) (k := 1) (first := first) (by omega)
    (step := addAlphas8Avx512 first) (by
      rintro s T c hc hcb ⟨U, V, X, Y, hU, hV, hX, hY, hT⟩
      refine ⟨_, _, _, _, addAlphas8_sum (k := 0) hf hcb (by omega) hU, addAlphas8_sum (k := 1) hf hcb (by omega) hV,
        addAlphas8_sum (k := 2) hf hcb (by omega) hX, addAlphas8_sum (k := 3) hf hcb (by omega) hY, ?_⟩
      unfold alphaSum
      rw [hc, ← hT]
      simp only [Finset.sum_range_succ, Finset.sum_range_zero]
      norm_num
      ring) hb (s := (setzero, setzero, setzero, setzero)) (T := 0)
      ⟨0, 0, 0, 0, hasSum_zero, hasSum_zero, hasSum_zero, hasSum_zero, rfl⟩
  obtain ⟨U, V, X, Y, hU, hV, hX, hY, hT⟩ := s1
  unfold plainRowSum
  have hT' : (U : ℤ) + V + X + Y = (alphaSum first (row.take (row.length / 64 * 64)) : ℕ) := by
    rw [show (64 : ℕ) = 4 * 16 from rfl, ← Nat.one_mul (alphaSum _ _), ← Nat.zero_add (1 * _), ← hT]
    push_cast
    rfl
  rw [← hT']
  exact i32_add4 (lanes32_sum hU) (lanes32_sum hV) (lanes32_sum hX) (lanes32_sum hY)

theorem avx512Row_eq {w stride first : ℕ} {row : List ℕ} (hlen : row.length = stride) (hw : w * 4 ≤ stride) (hf : first ≤ 255)
    (hb : ∀ v ∈ row, v ≤ 255) :
    avx512AlphaRow8 first (row.take (w * 4)) = plainRowSum first (row.take (w / 16 * 16 * 4)) := by
  have e : min (min (w * 4) stride / 64 * 64) (w * 4) = w / 16 * 16 * 4 := by
    rw [Nat.min_eq_left hw]
    omega
  rw [avx512AlphaRow8_eq hf (fun v hv => hb v (List.mem_of_mem_take hv)), List.take_take, List.length_take, hlen, e]

theorem any_congr' {α : Type} {l : List α} {f g : α → Bool} (h : ∀ a ∈ l, f a = g a) : l.any f = l.any g := by
  induction l with
  | nil => rfl
  | cons a l ih =>
    rw [List.any_cons, List.any_cons, h a (by simp), ih (fun b hb => h b (by simp [hb]))]

/-- The check with AVX-512 is the check of the first `width / 16 * 16` columns. -/
theorem alphaVaries512_eq {w stride : ℕ} {store : List ℕ} (hw : w * 4 ≤ stride) (hb : ∀ v ∈ store, v ≤ 255) :
    alphaVariesBy avx512AlphaRow8 store w stride = alphaVariesBy plainRowSum store (w / 16 * 16) stride := by
  have hf := getD_le_of_forall hb 3
  unfold alphaVariesBy
  by_cases he : store = []
  · rw [if_pos he, if_pos he]
  rw [if_neg he, if_neg he]
  generalize store.getD 3 0 = first at hf
  refine any_congr' fun row hr => ?_
  unfold chunksExact at hr
  rw [List.mem_map] at hr
  obtain ⟨y, hy, rfl⟩ := hr
  rw [avx512Row_eq (chunk_length (List.mem_range.1 hy)) hw hf
    (fun v hv => hb v (List.mem_of_mem_drop (List.mem_of_mem_take hv)))]

end PicScale
