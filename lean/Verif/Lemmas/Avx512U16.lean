import Verif.Model.Avx512U16
import Verif.Lemmas.Avx512
import Verif.Lemmas.X86U16
import Verif.Lemmas.X86U16Pass

/-!
The AVX-512 column handler of u16 images computes every sample from its own column.
-/

namespace PicScale

open Spec

variable {src : List ℕ} {stride : ℕ} {w : List ℤ} {b : Bounds} {total : ℕ}

/-- Sample `i` of a masked chunk: the samples after `m` are zero. -/
def maskedSamples (src : List ℕ) (stride : ℕ) (b : Bounds) (px m i k : ℕ) : ℕ :=
  if i < m then colSamples src stride b (px + i) k else 0

theorem maskzLoad512w_eq {off m : ℕ} (hm : m ≤ 32) (h : off + m ≤ src.length) :
    maskzLoad512w src off m = some ((List.range 4).map fun r =>
      lanes8 fun i => (((if 8 * r + i < m then src.getD (off + (8 * r + i)) 0 else 0) % 65536 : ℕ) : ℤ)) := by
  unfold maskzLoad512w slice?
  rw [if_pos (by omega), Option.map_some]
  congr 1
  apply List.map_congr_left
  intro r hr
  have hr : r < 4 := by simpa using hr
  have e : lanes8 (fun i => (((if 8 * r + i < m then src.getD (off + (8 * r + i)) 0 else 0) % 65536 : ℕ) : ℤ)) =
      lanes8 fun i => ((if 8 * r + i < m then src.getD (off + (8 * r + i)) 0 else 0 : ℕ) : ℤ) := by
    rw [← lanes8_mod fun i => ((if 8 * r + i < m then src.getD (off + (8 * r + i)) 0 else 0 : ℕ) : ℤ)]
    apply lanes8_congr
    intro i _
    push_cast
    rfl
  rw [e]
  unfold lanes8
  congr 1
  have hlen : ((src.drop off).take (off + m - off)).length = m := by
    rw [List.length_take, List.length_drop]; omega
  apply List.ext_getElem?
  intro i
  rw [List.getElem?_map, List.getElem?_take, List.getElem?_map]
  by_cases hi : i < 8
  · rw [if_pos hi, List.getElem?_range hi, Option.map_some, List.getElem?_drop]
    by_cases h1 : 8 * r + i < m
    · rw [List.getElem?_append_left (by omega), List.getElem?_take, if_pos (by omega), List.getElem?_drop, if_pos h1,
        List.getD_eq_getElem?_getD, List.getElem?_eq_getElem (by omega)]
      rfl
    · rw [List.getElem?_append_right (by omega), hlen, List.getElem?_replicate, if_pos (by omega), if_neg h1]
      rfl
  · rw [if_neg hi, List.getElem?_eq_none (by simpa using hi)]
    rfl

/-- State of a chunk after `n` rows. -/
def lb512State (src : List ℕ) (stride : ℕ) (b : Bounds) (w : List ℤ) (px m n : ℕ) : List (Reg × Reg) :=
  (List.range 4).map fun r =>
    (lanes4 fun i => acc16 w (maskedSamples src stride b px m (8 * r + i)) n,
     lanes4 fun i => acc16 w (maskedSamples src stride b px m (8 * r + (4 + i))) n)

theorem lb512State_zero (px m : ℕ) : List.replicate 4 (set1epi32 ROUNDING_CONST, set1epi32 ROUNDING_CONST) =
    lb512State src stride b w px m 0 := by
  unfold lb512State
  simp only [acc16_zero, set1epi32_of]
  rw [List.map_const', List.length_range]
  rfl

theorem dot512_eq (dot : Bool) (a x c : Reg) : dot512 dot a x c = add32 a (madd16 x c) := by
  unfold dot512
  split_ifs
  · exact dpwssd_eq a x c
  · rfl

theorem lb512Step_inv (dot : Bool) (h : VPre src stride w b total) {px m j : ℕ} (hm : m ≤ 32) (hx : px + m ≤ total)
    (hj : j < b.size) :
    lb512Step dot b src stride w px m j (lb512State src stride b w px m j) =
      some (lb512State src stride b w px m (j + 1)) := by
  have r0 := h.row (k := j) hj
  unfold lb512Step
  rw [h.get hj]
  simp only [Option.bind_eq_bind, Option.bind_some]
  rw [maskzLoad512w_eq hm (by omega)]
  simp only [Option.bind_some]
  unfold lb512State
  rw [zipWith_map_range]
  refine congrArg some (List.map_congr_left fun r _ => ?_)
  have := lbDot_of (fun i => acc16 w (maskedSamples src stride b px m (8 * r + i)) j)
    (fun i => acc16 w (maskedSamples src stride b px m (8 * r + (4 + i))) j)
    (fun i => (if 8 * r + i < m then src.getD (stride * (b.start + j) + px + (8 * r + i)) 0 else 0) % 65536)
    (fun i => Nat.mod_lt _ (by norm_num)) (w.getD j 0)
  unfold lbDot at this
  simp only [dot512_eq]
  rw [this]
  simp only [← acc16_succ _ _ j, maskedSamples, colSamples, Nat.add_assoc]

theorem lb512Chunk_ok (dot : Bool) (d : ℕ) (h : VPre src stride w b total) {px m : ℕ} (hm : m ≤ 32) (hx : px + m ≤ total)
    (dst : List ℕ) (hl : dst.length = total) :
    ∃ r, lb512Chunk dot d b src stride w px m dst = some r ∧ r.length = total ∧
      (∀ p, px ≤ p → p < px + m → r[p]? = some (lb16Val d (acc16 w (colSamples src stride b p) b.size))) ∧
      (∀ p, (p < px ∨ px + m ≤ p) → r[p]? = dst[p]?) := by
  obtain ⟨r, a⟩ := write_block (B := m) (x := px) (total := total)
    (val := fun p => lb16Val d (acc16 w (colSamples src stride b p) b.size)) dst hl hx
  refine ⟨r, ?_, a.2⟩
  unfold lb512Chunk
  have hsz : (if b.size ≤ 4 then b.size else min b.size w.length) = b.size := by
    split_ifs
    · rfl
    · exact Nat.min_eq_left h.weights
  dsimp only
  rw [hsz, lb512State_zero (src := src) (stride := stride) (b := b) (w := w) px m,
    unrolled_eq (inv := lb512State src stride b w px m) (fun j hj => lb512Step_inv dot h hm hx hj)
      (fun j hj => lb512Step_inv dot h hm hx hj)]
  simp only [Option.bind_eq_bind, Option.bind_some]
  have e : (lb512State src stride b w px m b.size).flatMap (lbNarrow d) =
      (List.range 32).map fun i => lb16Val d (acc16 w (maskedSamples src stride b px m i) b.size) := by
    unfold lb512State
    rw [List.flatMap_map]
    have := flatMap_range8 (fun i => lb16Val d (acc16 w (maskedSamples src stride b px m i) b.size)) 4
    rw [show 8 * 4 = 32 from rfl] at this
    rw [← this]
    apply List.flatMap_congr
    intro r _
    rw [lbNarrow_of _ _ _ (fun i => i32_acc16 _ _ _) (fun i => i32_acc16 _ _ _)]
    apply List.map_congr_left
    intro i _
    split_ifs with hi
    · rfl
    · rw [show 8 * r + (4 + (i - 4)) = 8 * r + i by omega]
  rw [e, ← List.map_take, List.take_range, Nat.min_eq_left hm, ← a.1]
  refine congrArg (writeAt? dst px) (List.map_congr_left fun i hi => ?_)
  have : maskedSamples src stride b px m i = colSamples src stride b (px + i) := by
    funext k
    unfold maskedSamples
    rw [if_pos (List.mem_range.1 hi)]
  rw [this]

/-- The AVX-512 column handler up to 12 bits. -/
theorem avx512ColumnLb_ok (dot : Bool) (d : ℕ) {dst : List ℕ} (h : VPre src stride w b dst.length) :
    ∃ r, avx512ColumnLb dot d b src dst stride w = some r ∧ r.length = dst.length ∧
      ∀ p, p < dst.length → r[p]? = some (lb16Val d (acc16 w (colSamples src stride b p) b.size)) := by
  have key : ∀ fuel cx (dd : List ℕ), dd.length = dst.length → dst.length ≤ fuel + cx →
      (∀ p, p < cx → p < dst.length → dd[p]? = some (lb16Val d (acc16 w (colSamples src stride b p) b.size))) →
      ∃ cx' r, whileBlocks 0 32 dst.length
        (fun px r => lb512Chunk dot d b src stride w px (min 32 (dst.length - px)) r) fuel cx dd = some (cx', r) ∧
        r.length = dst.length ∧
        ∀ p, p < dst.length → r[p]? = some (lb16Val d (acc16 w (colSamples src stride b p) b.size)) := by
    intro fuel
    induction fuel with
    | zero =>
      intro cx d hl hf hv
      exact ⟨cx, d, rfl, hl, fun p hp => hv p (by omega) hp⟩
    | succ fuel ih =>
      intro cx dd hl hf hv
      unfold whileBlocks
      by_cases hc : cx + 0 < dst.length
      · rw [if_pos hc]
        obtain ⟨r, e1, e2, e3, e4⟩ := lb512Chunk_ok dot d h (px := cx) (m := min 32 (dst.length - cx))
          (Nat.min_le_left _ _) (by omega) dd hl
        rw [e1]
        simp only [Option.bind_eq_bind, Option.bind_some]
        refine ih (cx + 32) r e2 (by omega) fun p hp hpl => ?_
        by_cases hq : p < cx
        · rw [e4 p (Or.inl hq), hv p hq hpl]
        · exact e3 p (by omega) (by omega)
      · rw [if_neg hc]
        exact ⟨cx, dd, rfl, hl, fun p hp => hv p (by omega) hp⟩
  obtain ⟨cx', r, e1, e2, e3⟩ := key dst.length 0 dst rfl (by omega) (fun p hp _ => by omega)
  refine ⟨r, ?_, e2, e3⟩
  unfold avx512ColumnLb
  dsimp only
  rw [e1]
  rfl

/-- Values of the vertical pass. -/
def vv512 (cpu : Cpu512) (fma fused : Bool) (N d : ℕ) (fw : FilterWeights ℚ) (width y q : ℕ) (P : ℕ → ℕ → ℕ) : ℕ :=
  if cpu.avx512 = true ∧ ¬ 12 < d then
    lb16Val d (acc16 (rowW (numericalApproximation F32.rnd fw) y) (colOf fw P y q) (fw.bound y).size)
  else vvX86 cpu.base fma fused N d fw width y q P

theorem passFun_u16X512 (cpu : Cpu512) (dot fma fused : Bool) {N : ℕ} (hN : 1 ≤ N ∧ N ≤ 4) (d : ℕ) :
    PassFun N (formatU16X512 cpu dot fma fused N) d (fun fw out => PlainShape fw out)
      (vv512 cpu fma fused N d) (hvX86 cpu.base fma fused N d) where
  vertical := fun src dst fw hs hd hw hdw hbd hT hO => by
    unfold formatU16X512 vv512
    dsimp only
    rw [hbd]
    by_cases h5 : cpu.avx512 = true ∧ ¬ 12 < d
    · simp only [if_pos h5]
      have hq := hO.q_valid (ρ := F32.rnd) hT
      obtain ⟨r, e1, e2, e3, e4⟩ := verticalG_raw (column := avx512ColumnLb dot d) (fw := numericalApproximation F32.rnd fw)
        (V := fun y q => lb16Val d (acc16 (rowW (numericalApproximation F32.rnd fw) y)
          (colOf fw (rowPos 0 src.buffer (src.strideOf N)) y q) (fw.bound y).size))
        (fun y dd hy hl hp => by
          obtain ⟨r, r1, r2, r3⟩ := avx512ColumnLb_ok dot d (dst := dd) hp
          refine ⟨r, r1, r2, fun p hp' => ?_⟩
          rw [r3 p hp', na_bound, colSamples_eq]
          rfl) hN.1 hs hd hw hdw hq
      exact ⟨_, e1, (raw_shape hN.1 hd e2 e4).1, (raw_shape hN.1 hd e2 e4).2, fun y x c hy hx hc => e3 y x c hy hx hc⟩
    · simp only [if_neg h5]
      exact (passFun_u16X86 cpu.base fma fused hN d).vertical src dst fw hs hd hw hdw hbd hT hO
  horizontal := (passFun_u16X86 cpu.base fma fused hN d).horizontal
  cong_h := (passFun_u16X86 cpu.base fma fused hN d).cong_h

end PicScale
