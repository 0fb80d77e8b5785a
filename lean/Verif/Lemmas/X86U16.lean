import Verif.Model.X86U16
import Verif.Lemmas.SimdPassG
import Verif.Lemmas.AlphaX86U16
import Verif.SpecX86U16

/-!
The x86 handlers for u16 images up to 12 bits: what they compute, and that they stay in bounds.
-/

namespace PicScale

open Finset Spec

/-! ### loops -/

theorem forRange_inv {σ : Type} {body : ℕ → σ → Option σ} {P : ℕ → σ → Prop} {n : ℕ} {s : σ}
    (h0 : P 0 s) (hb : ∀ j, j < n → ∀ s, P j s → ∃ s', body j s = some s' ∧ P (j + 1) s') :
    ∃ s', forRange 0 n body s = some s' ∧ P n s' := by
  unfold forRange
  rw [Nat.sub_zero]
  have key : ∀ m a (s : σ), a + m = n → P a s →
      ∃ s', (List.range' a m).foldlM (fun s j => body j s) s = some s' ∧ P n s' := by
    intro m
    induction m with
    | zero => intro a s ha hP; exact ⟨s, rfl, by rwa [← ha]⟩
    | succ m ih =>
      intro a s ha hP
      obtain ⟨s', e1, e2⟩ := hb a (by omega) s hP
      rw [List.range'_succ, List.foldlM_cons, e1]
      simp only [Option.bind_eq_bind, Option.bind_some]
      exact ih (a + 1) s' (by omega) e2
  exact key n 0 s (by omega) h0

/-- The samples of a chunk of `B` samples are `val` of the columns read. -/
def BlockVal (B total : ℕ) (body : ℕ → Option (List ℕ)) (val : ℕ → ℕ) : Prop :=
  ∀ col, col + B ≤ total → body col = some ((List.range B).map fun c => val (col + c))

theorem chunkLoop_spec {B total off cx : ℕ} {body : ℕ → Option (List ℕ)} {val : ℕ → ℕ} (hB : 1 ≤ B)
    (hb : BlockVal B total body val) (dst : List ℕ) (hl : dst.length = total) (ho : off ≤ total)
    (hc : cx ≤ off) :
    ∃ r, chunkLoop B body off cx dst = some (off + (total - off) / B * B,
        if (total - off) / B = 0 then cx else cx + ((total - off) / B - 1) * B, r) ∧
      r.length = total ∧ (∀ p, p < off → r[p]? = dst[p]?) ∧
      (∀ p, off ≤ p → p < off + (total - off) / B * B → r[p]? = some (val (cx + (p - off)))) := by
  have hn : (total - off) / B * B ≤ total - off := Nat.div_mul_le_self _ _
  obtain ⟨r, e1, e2, e3, e4⟩ := forRange_inv (n := (total - off) / B) (s := dst)
    (body := fun x d => do
      let v ← body (cx + x * B)
      writeAt? d (off + x * B) v)
    (P := fun j d => d.length = total ∧ (∀ p, p < off → d[p]? = dst[p]?) ∧
      (∀ p, off ≤ p → p < off + j * B → d[p]? = some (val (cx + (p - off)))))
    ⟨hl, fun _ _ => rfl, fun p h1 h2 => by omega⟩
    (by
      intro j hj d ⟨h1, h2, h3⟩
      have hjB : (j + 1) * B ≤ (total - off) / B * B := Nat.mul_le_mul_right _ hj
      rw [Nat.add_mul, Nat.one_mul] at hjB
      have hv := hb (cx + j * B) (by omega)
      obtain ⟨r, w1, w2, w3, w4⟩ := writeAt?_spec (l := d) (a := off + j * B)
        (v := (List.range B).map fun c => val (cx + j * B + c)) (by simp; omega)
      simp only [List.length_map, List.length_range] at w3 w4
      refine ⟨r, ?_, by omega, ?_, ?_⟩
      · simp only [Option.bind_eq_bind]
        rw [hv]
        exact w1
      · intro p hp
        rw [w4 p (Or.inl (by omega)), h2 p hp]
      · intro p hp1 hp2
        rw [Nat.add_mul, Nat.one_mul] at hp2
        by_cases h : p < off + j * B
        · rw [w4 p (Or.inl h), h3 p hp1 h]
        · have := w3 (p - (off + j * B)) (by omega)
          rw [show off + j * B + (p - (off + j * B)) = p by omega] at this
          rw [this, List.getElem?_map, List.getElem?_range (by omega)]
          simp only [Option.map_some]
          rw [show cx + j * B + (p - (off + j * B)) = cx + (p - off) by omega])
  refine ⟨r, ?_, e2, e3, e4⟩
  unfold chunkLoop
  rw [hl]
  simp only [Option.bind_eq_bind] at e1 ⊢
  rw [e1]
  rfl

/-- Groups of 8, 4 and single samples after groups of 16 (or 32 and 16): where they read. -/
theorem chain3 {n K : ℕ} {b8 b4 b1 : ℕ → Option (List ℕ)} {val tail : ℕ → ℕ}
    (h8 : BlockVal 8 n b8 val) (h4 : BlockVal 4 n b4 val) (h1 : BlockVal 1 n b1 tail)
    (hK : K ≤ n / 16 * 16) (dst : List ℕ) (hl : dst.length = n) :
    ∃ r, (do
      let (off, cx, r) ← chunkLoop 8 b8 (n / 16 * 16) K dst
      let (off, cx, r) ← chunkLoop 4 b4 off cx r
      let (_, _, r) ← chunkLoop 1 b1 off cx r
      some r) = some r ∧ r.length = n ∧ (∀ p, p < n / 16 * 16 → r[p]? = dst[p]?) ∧
      (∀ p, n / 16 * 16 ≤ p → p < n → r[p]? = some (if p < n / 4 * 4 then val (K + (p - tailStart n p))
        else tail (K + (p - tailStart n p)))) := by
  obtain ⟨r1, a1, a2, a3, a4⟩ := chunkLoop_spec (off := n / 16 * 16) (cx := K) (by norm_num) h8 dst hl (by omega) hK
  have o1 : n / 16 * 16 + (n - n / 16 * 16) / 8 * 8 = n / 8 * 8 := by omega
  have c1 : (if (n - n / 16 * 16) / 8 = 0 then K else K + ((n - n / 16 * 16) / 8 - 1) * 8) = K := by
    split_ifs <;> omega
  rw [o1, c1] at a1
  rw [o1] at a4
  obtain ⟨r2, b1', b2, b3, b4'⟩ := chunkLoop_spec (off := n / 8 * 8) (cx := K) (by norm_num) h4 r1 a2 (by omega) (by omega)
  have o2 : n / 8 * 8 + (n - n / 8 * 8) / 4 * 4 = n / 4 * 4 := by omega
  have c2 : (if (n - n / 8 * 8) / 4 = 0 then K else K + ((n - n / 8 * 8) / 4 - 1) * 4) = K := by
    split_ifs <;> omega
  rw [o2, c2] at b1'
  rw [o2] at b4'
  obtain ⟨r3, d1, d2, d3, d4⟩ := chunkLoop_spec (off := n / 4 * 4) (cx := K) (by norm_num) h1 r2 b2 (by omega) (by omega)
  have o3 : n / 4 * 4 + (n - n / 4 * 4) / 1 * 1 = n := by omega
  rw [o3] at d4
  refine ⟨r3, ?_, d2, ?_, ?_⟩
  · simp only [Option.bind_eq_bind]
    rw [a1]
    simp only [Option.bind_some]
    rw [b1']
    simp only [Option.bind_some]
    rw [d1]
    rfl
  · intro p hp
    rw [d3 p (by omega), b3 p (by omega), a3 p hp]
  · intro p hp1 hp2
    have n16 : ¬ p < n / 16 * 16 := by omega
    by_cases h8' : p < n / 8 * 8
    · have ht : tailStart n p = n / 16 * 16 := by unfold tailStart; rw [if_neg n16, if_pos h8']
      rw [if_pos (show p < n / 4 * 4 by omega), ht, d3 p (by omega), b3 p h8', a4 p hp1 h8']
    · by_cases h4' : p < n / 4 * 4
      · have ht : tailStart n p = n / 8 * 8 := by unfold tailStart; rw [if_neg n16, if_neg h8', if_pos h4']
        rw [if_pos h4', ht, d3 p h4', b4' p (by omega) h4']
      · have ht : tailStart n p = n / 4 * 4 := by unfold tailStart; rw [if_neg n16, if_neg h8', if_neg h4']
        rw [if_neg h4', ht, d4 p (by omega) hp2]

/-- The values of a column handler: `val`, and `tail` in the last `n % 4` positions, of the column read. -/
def columnVal (B n : ℕ) (val tail : ℕ → ℕ) (p : ℕ) : ℕ :=
  if p < n / 4 * 4 then val (readColumn B n p) else tail (readColumn B n p)

theorem sseChain {n : ℕ} {b16 b8 b4 b1 : ℕ → Option (List ℕ)} {val tail : ℕ → ℕ}
    (h16 : BlockVal 16 n b16 val) (h8 : BlockVal 8 n b8 val) (h4 : BlockVal 4 n b4 val)
    (h1 : BlockVal 1 n b1 tail) (dst : List ℕ) (hl : dst.length = n) :
    ∃ r, (do
      let (off, cx, r) ← chunkLoop 16 b16 0 0 dst
      let (off, cx, r) ← chunkLoop 8 b8 off cx r
      let (off, cx, r) ← chunkLoop 4 b4 off cx r
      let (_, _, r) ← chunkLoop 1 b1 off cx r
      some r) = some r ∧ r.length = n ∧ ∀ p, p < n → r[p]? = some (columnVal 16 n val tail p) := by
  obtain ⟨r0, a1, a2, _, a4⟩ := chunkLoop_spec (off := 0) (cx := 0) (by norm_num) h16 dst hl (by omega) (by omega)
  have c0 : (if (n - 0) / 16 = 0 then 0 else 0 + ((n - 0) / 16 - 1) * 16) = n / 16 * 16 - 16 := by
    split_ifs <;> omega
  rw [c0, Nat.sub_zero, Nat.zero_add] at a1
  rw [Nat.sub_zero, Nat.zero_add] at a4
  obtain ⟨r, b1', b2, b3, b4'⟩ := chain3 h8 h4 h1 (K := n / 16 * 16 - 16) (by omega) r0 a2
  refine ⟨r, ?_, b2, ?_⟩
  · simp only [Option.bind_eq_bind] at b1' ⊢
    rw [a1]
    exact b1'
  · intro p hp
    unfold columnVal readColumn
    by_cases h : p < n / 16 * 16
    · rw [if_pos h, if_pos (show p < n / 4 * 4 by omega), b3 p h, a4 p (by omega) h]
      simp
    · rw [if_neg h, b4' p (by omega) hp]

theorem avxChain {n : ℕ} {b32 b16 b8 b4 b1 : ℕ → Option (List ℕ)} {val tail : ℕ → ℕ}
    (h32 : BlockVal 32 n b32 val) (h16 : BlockVal 16 n b16 val) (h8 : BlockVal 8 n b8 val)
    (h4 : BlockVal 4 n b4 val) (h1 : BlockVal 1 n b1 tail) (dst : List ℕ) (hl : dst.length = n) :
    ∃ r, (do
      let (off, cx, r) ← chunkLoop 32 b32 0 0 dst
      let (off, cx, r) ← chunkLoop 16 b16 off cx r
      let (off, cx, r) ← chunkLoop 8 b8 off cx r
      let (off, cx, r) ← chunkLoop 4 b4 off cx r
      let (_, _, r) ← chunkLoop 1 b1 off cx r
      some r) = some r ∧ r.length = n ∧ ∀ p, p < n → r[p]? = some (columnVal 32 n val tail p) := by
  obtain ⟨r0, a1, a2, _, a4⟩ := chunkLoop_spec (off := 0) (cx := 0) (by norm_num) h32 dst hl (by omega) (by omega)
  have c0 : (if (n - 0) / 32 = 0 then 0 else 0 + ((n - 0) / 32 - 1) * 32) = n / 32 * 32 - 32 := by
    split_ifs <;> omega
  rw [c0, Nat.sub_zero, Nat.zero_add] at a1
  rw [Nat.sub_zero, Nat.zero_add] at a4
  obtain ⟨r1, e1, e2, e3, e4⟩ := chunkLoop_spec (off := n / 32 * 32) (cx := n / 32 * 32 - 32) (by norm_num) h16 r0 a2
    (by omega) (by omega)
  have o1 : n / 32 * 32 + (n - n / 32 * 32) / 16 * 16 = n / 16 * 16 := by omega
  have c1 : (if (n - n / 32 * 32) / 16 = 0 then n / 32 * 32 - 32 else
      n / 32 * 32 - 32 + ((n - n / 32 * 32) / 16 - 1) * 16) = n / 32 * 32 - 32 := by
    split_ifs <;> omega
  rw [o1, c1] at e1
  rw [o1] at e4
  obtain ⟨r, b1', b2, b3, b4'⟩ := chain3 h8 h4 h1 (K := n / 32 * 32 - 32) (by omega) r1 e2
  refine ⟨r, ?_, b2, ?_⟩
  · simp only [Option.bind_eq_bind] at b1' ⊢
    rw [a1]
    simp only [Option.bind_some]
    rw [e1]
    exact b1'
  · intro p hp
    unfold columnVal readColumn
    by_cases h : p < n / 32 * 32
    · rw [if_pos h, if_pos (show p < n / 4 * 4 by omega), b3 p (by omega), e3 p h, a4 p (by omega) h]
      simp
    · rw [if_neg h]
      by_cases h' : p < n / 16 * 16
      · have ht : tailStart n p = n / 32 * 32 := by unfold tailStart; rw [if_pos h']
        rw [if_pos (show p < n / 4 * 4 by omega), b3 p h', e4 p (by omega) h', ht]
      · rw [b4' p (by omega) hp]

/-! ### lanes -/

theorem load128w_eq {src : List ℕ} {off : ℕ} (h : off + 8 ≤ src.length) :
    load128w src off = some (lanes8 fun c => ((src.getD (off + c) 0 % 65536 : ℕ) : ℤ)) := by
  have e : lanes8 (fun i => ((src.getD (off + i) 0 % 65536 : ℕ) : ℤ)) =
      lanes8 fun i => ((src.getD (off + i) 0 : ℕ) : ℤ) := by
    rw [← lanes8_mod fun i => ((src.getD (off + i) 0 : ℕ) : ℤ)]
    apply lanes8_congr
    intro i _
    push_cast
    rfl
  unfold load128w
  rw [e, slice?_eq_some (by omega) h, Nat.add_sub_cancel_left, slice_eq_map_range 0 h]
  unfold lanes8
  simp only [Option.map_some, List.map_map]
  rfl

theorem load64w_eq {src : List ℕ} {off : ℕ} (h : off + 4 ≤ src.length) :
    load64w src off = some (lanes8 fun c => ((if c < 4 then src.getD (off + c) 0 % 65536 else 0 : ℕ) : ℤ)) := by
  have e : lanes8 (fun i => ((if i < 4 then src.getD (off + i) 0 % 65536 else 0 : ℕ) : ℤ)) =
      lanes8 fun i => ((if i < 4 then src.getD (off + i) 0 else 0 : ℕ) : ℤ) := by
    rw [← lanes8_mod fun i => ((if i < 4 then src.getD (off + i) 0 else 0 : ℕ) : ℤ)]
    apply lanes8_congr
    intro i _
    split_ifs
    · push_cast; rfl
    · rfl
  have z : ∀ l : List ℤ, ofLanes16 l ++ List.replicate 8 0 = ofLanes16 (l ++ [0, 0, 0, 0]) := by
    intro l
    unfold ofLanes16
    rw [List.flatMap_append]
    rfl
  unfold load64w
  rw [e, slice?_eq_some (by omega) h, Nat.add_sub_cancel_left, slice_eq_map_range 0 h]
  unfold lanes8
  simp only [Option.map_some, List.map_map, z]
  congr 2

theorem u16s_bounds (f : ℕ → ℕ) (hf : ∀ i, f i < 65536) :
    (∀ i, (0 : ℤ) ≤ (f i : ℤ)) ∧ (∀ i, (f i : ℤ) < 65536) :=
  ⟨fun i => by omega, fun i => by have := hf i; omega⟩

theorem lanes16_lanes4 (f : ℕ → ℕ) (hf : ∀ i, f i < 65536) : lanes16 (lanes4 fun i => (f i : ℤ)) =
    [i16 (f 0 : ℤ), 0, i16 (f 1 : ℤ), 0, i16 (f 2 : ℤ), 0, i16 (f 3 : ℤ), 0] := by
  have e : lanes4 (fun i => (f i : ℤ)) = ofLanes16 [(f 0 : ℤ), 0, (f 1 : ℤ), 0, (f 2 : ℤ), 0, (f 3 : ℤ), 0] := by
    obtain ⟨h0, h1⟩ := u16s_bounds f hf
    show bytes32 (f 0 : ℤ) ++ (bytes32 (f 1 : ℤ) ++ (bytes32 (f 2 : ℤ) ++ (bytes32 (f 3 : ℤ) ++ []))) = _
    rw [bytes32_u16 (h0 0) (h1 0), bytes32_u16 (h0 1) (h1 1), bytes32_u16 (h0 2) (h1 2), bytes32_u16 (h0 3) (h1 3)]
    rfl
  rw [e, lanes16_ofLanes16]
  have z : i16 0 = 0 := i16_eq_self (by norm_num) (by norm_num)
  simp only [List.map_cons, List.map_nil, z]

/-- One weight for four samples. -/
theorem wdot4 (st : ℕ → ℤ) (f : ℕ → ℕ) (hf : ∀ i, f i < 65536) (w : ℤ) :
    add32 (lanes4 st) (madd16 (lanes4 fun i => (f i : ℤ)) (set1epi16 w)) =
      lanes4 fun i => i32 (st i + i16 w * i16 (f i : ℤ)) := by
  have h := madd_add [st 0, st 1, st 2, st 3] _ _ _ _ _ _ _ _ (st 0) (st 1) (st 2) (st 3) _ _ _ _ _ _ _ _ rfl _ _
    (lanes16_lanes4 f hf) (lanes_set16 w)
  simp only [mul_comm _ (i16 w), mul_zero, add_zero] at h
  exact h

/-! ### accumulators -/

/-- Accumulator after `n` taps with weights `w` and samples `s`. -/
def acc16 (w : List ℤ) (s : ℕ → ℕ) (n : ℕ) : ℤ :=
  i32 (16384 + wsum n (fun k => i16 (w.getD k 0)) (fun k => i16 (s k : ℤ)))

theorem acc16_succ (w : List ℤ) (s : ℕ → ℕ) (n : ℕ) :
    i32 (acc16 w s n + i16 (w.getD n 0) * i16 ((s n % 65536 : ℕ) : ℤ)) = acc16 w s (n + 1) := by
  have e : i16 ((s n % 65536 : ℕ) : ℤ) = i16 (s n : ℤ) := i16_congr (by omega)
  unfold acc16
  rw [i32_i32_add, e]
  simp only [wsum, sum_range_succ]
  rw [add_assoc]

theorem i32_round : i32 16384 = 16384 := i32_eq_self (by norm_num) (by norm_num)

theorem acc16_zero (w : List ℤ) (s : ℕ → ℕ) : acc16 w s 0 = 16384 := by
  unfold acc16 wsum
  rw [sum_range_zero, add_zero, i32_round]

theorem i32_acc16 (w : List ℤ) (s : ℕ → ℕ) (n : ℕ) : i32 (acc16 w s n) = acc16 w s n := by
  unfold acc16; exact i32_i32 _

/-- The column samples of the vertical handlers. -/
def colSamples (src : List ℕ) (stride : ℕ) (b : Bounds) (p : ℕ) (k : ℕ) : ℕ :=
  src.getD (stride * (b.start + k) + p) 0

/-- What `srai`, `packus_epi32` and the signed `min_epi16` do to one accumulator. -/
def lb16Val (d : ℕ) (a : ℤ) : ℕ := u16 (min (i16 (max 0 (min (a >>> 15) 65535))) (i16 (2 ^ d - 1)))

theorem min16_of (f g : ℕ → ℤ) : min16 (lanes8 f) (lanes8 g) = lanes8 fun i => min (i16 (f i)) (i16 (g i)) := by
  unfold min16 lanes8
  rw [lanes16_ofLanes16, lanes16_ofLanes16, List.map_map, List.map_map, zipWith_map_range]
  rfl

theorem srai32_of (f : ℕ → ℤ) : srai32 PRECISION (lanes4 f) = lanes4 fun i => i32 (f i) >>> 15 := by
  unfold srai32 lanes4 PRECISION
  rw [lanes32_ofLanes32, List.map_map, List.map_map]
  rfl

theorem lbNarrow_of (d : ℕ) (f g : ℕ → ℤ) (hf : ∀ i, i32 (f i) = f i) (hg : ∀ i, i32 (g i) = g i) :
    lbNarrow d (lanes4 f, lanes4 g) = (List.range 8).map fun i => lb16Val d (if i < 4 then f i else g (i - 4)) := by
  unfold lbNarrow
  dsimp only
  rw [srai32_of, srai32_of, packus32_of, set1epi16_of, min16_of, toU16_of]
  apply List.map_congr_left
  intro i _
  unfold lb16Val
  congr 3
  split_ifs
  · rw [shift_i32, hf]
  · rw [shift_i32, hg]

/-! ### vertical blocks -/

theorem lbDot_of (f g : ℕ → ℤ) (v : ℕ → ℕ) (hv : ∀ i, v i < 65536) (w : ℤ) :
    lbDot (lanes4 f, lanes4 g) (lanes8 fun i => (v i : ℤ)) (set1epi16 w) =
      (lanes4 fun i => i32 (f i + i16 w * i16 (v i : ℤ)),
       lanes4 fun i => i32 (g i + i16 w * i16 (v (4 + i) : ℤ))) := by
  obtain ⟨h0, h1⟩ := u16s_bounds v hv
  unfold lbDot
  dsimp only
  rw [unpacklo16_zero h0 h1, unpackhi16_zero h0 h1, wdot4 f v hv, wdot4 g (fun i => v (4 + i)) (fun i => hv _)]

/-- State of a chunk of `8 R` samples after `n` rows. -/
def lbState (src : List ℕ) (stride : ℕ) (b : Bounds) (w : List ℤ) (R sx n : ℕ) : List (Reg × Reg) :=
  (List.range R).map fun r =>
    (lanes4 fun i => acc16 w (colSamples src stride b (sx + 8 * r + i)) n,
     lanes4 fun i => acc16 w (colSamples src stride b (sx + 8 * r + (4 + i))) n)

theorem zip_range_map {β : Type} (R : ℕ) (f : ℕ → β) :
    (List.range R).zip ((List.range R).map f) = (List.range R).map fun r => (r, f r) := by
  have : ∀ l : List ℕ, l.zip (l.map f) = l.map fun r => (r, f r) := by
    intro l
    induction l with
    | nil => rfl
    | cons a l ih => rw [List.map_cons, List.zip_cons_cons, ih, List.map_cons]
  exact this _

variable {src : List ℕ} {stride : ℕ} {w : List ℤ} {b : Bounds} {total : ℕ}

theorem lbState_zero (R sx : ℕ) : List.replicate R (set1epi32 ROUNDING_CONST, set1epi32 ROUNDING_CONST) =
    lbState src stride b w R sx 0 := by
  unfold lbState
  simp only [acc16_zero, set1epi32_of]
  rw [List.map_const', List.length_range]
  rfl

theorem lbStep_inv (h : VPre src stride w b total) {R sx j : ℕ} (hx : sx + 8 * R ≤ total) (hj : j < b.size) :
    lbStep R b src stride w sx j (lbState src stride b w R sx j) = some (lbState src stride b w R sx (j + 1)) := by
  have r0 := h.row (k := j) hj
  unfold lbStep
  rw [h.get hj]
  simp only [Option.bind_eq_bind, Option.bind_some]
  unfold lbState
  rw [zip_range_map]
  refine mapM_map_some _ _ _ _ ?_
  intro r hr
  have hr : r < R := by simpa using hr
  dsimp only
  rw [load128w_eq (by omega)]
  simp only [Option.bind_some]
  rw [lbDot_of _ _ _ (fun i => Nat.mod_lt _ (by norm_num))]
  simp only [← acc16_succ _ _ j, colSamples, Nat.add_assoc]

theorem flatMap_range8 (F : ℕ → ℕ) (R : ℕ) : (List.range R).flatMap (fun r => (List.range 8).map fun i => F (8 * r + i)) =
    (List.range (8 * R)).map F := by
  induction R with
  | zero => rfl
  | succ R ih =>
    rw [List.range_succ (n := R), List.flatMap_append, ih, Nat.mul_succ, List.range_add, List.map_append, List.map_map]
    simp [Function.comp_def]

theorem lbBlock_ok (h : VPre src stride w b total) (R d : ℕ) :
    BlockVal (8 * R) total (lbBlock R d b src stride w)
      (fun p => lb16Val d (acc16 w (colSamples src stride b p) b.size)) := by
  intro sx hx
  unfold lbBlock
  rw [lbState_zero (src := src) (stride := stride) (b := b) (w := w) R sx, Nat.min_eq_left h.weights,
    forRange_spec (inv := lbState src stride b w R sx) (Nat.zero_le _) (fun j _ hj => lbStep_inv h hx hj)]
  simp only [Option.bind_eq_bind, Option.bind_some]
  congr 1
  unfold lbState
  rw [List.flatMap_map, ← flatMap_range8]
  apply List.flatMap_congr
  intro r _
  rw [lbNarrow_of _ _ _ (fun i => i32_acc16 _ _ _) (fun i => i32_acc16 _ _ _)]
  apply List.map_congr_left
  intro i _
  split_ifs with hi
  · rw [Nat.add_assoc]
  · rw [show sx + 8 * r + (4 + (i - 4)) = sx + (8 * r + i) by omega]

/-- One row of `lbBlock8Avx`. -/
def lbStep8Avx (b : Bounds) (src : List ℕ) (stride : ℕ) (weight : List ℤ) (sx : ℕ) (j : ℕ) (st : Reg × Reg) :
    Option (Reg × Reg) := do
  let w ← weight[j]?
  let row ← load128w src (stride * (b.start + j) + sx)
  let item := permute50 row
  some (add32 st.1 (madd16 (unpacklo16 item.1 setzero) (set1epi16 w)),
    add32 st.2 (madd16 (unpacklo16 item.2 setzero) (set1epi16 w)))

theorem permute50_of (f : ℕ → ℤ) :
    permute50 (lanes8 f) = (lanes8 fun i => f (i % 4), lanes8 fun i => f (4 + i % 4)) := rfl

theorem permuteMiddle_of (f g : ℕ → ℤ) : permuteMiddle (lanes8 f, lanes8 g) =
    (lanes8 fun i => if i < 4 then f i else g (i - 4), lanes8 fun i => if i < 4 then f (4 + i) else g i) := rfl

theorem mod16_lt (n : ℕ) : n % 65536 < 65536 := Nat.mod_lt _ (by norm_num)

theorem lbStep8Avx_inv (h : VPre src stride w b total) {sx j : ℕ} (hx : sx + 8 ≤ total) (hj : j < b.size) :
    lbStep8Avx b src stride w sx j (lanes4 fun i => acc16 w (colSamples src stride b (sx + i)) j,
      lanes4 fun i => acc16 w (colSamples src stride b (sx + (4 + i))) j) =
    some (lanes4 fun i => acc16 w (colSamples src stride b (sx + i)) (j + 1),
      lanes4 fun i => acc16 w (colSamples src stride b (sx + (4 + i))) (j + 1)) := by
  have r0 := h.row (k := j) hj
  unfold lbStep8Avx
  rw [h.get hj, load128w_eq (by omega)]
  simp only [Option.bind_eq_bind, Option.bind_some]
  rw [permute50_of]
  dsimp only
  have b1 := u16s_bounds (fun i => src.getD (stride * (b.start + j) + sx + i % 4) 0 % 65536) (fun i => mod16_lt _)
  have b2 := u16s_bounds (fun i => src.getD (stride * (b.start + j) + sx + (4 + i % 4)) 0 % 65536) (fun i => mod16_lt _)
  rw [unpacklo16_zero b1.1 b1.2, unpacklo16_zero b2.1 b2.2,
    wdot4 _ (fun i => src.getD (stride * (b.start + j) + sx + i % 4) 0 % 65536) (fun i => mod16_lt _),
    wdot4 _ (fun i => src.getD (stride * (b.start + j) + sx + (4 + i % 4)) 0 % 65536) (fun i => mod16_lt _)]
  have e1 : (lanes4 fun i => i32 (acc16 w (colSamples src stride b (sx + i)) j + i16 (w.getD j 0) *
      i16 ((src.getD (stride * (b.start + j) + sx + i % 4) 0 % 65536 : ℕ) : ℤ))) =
      lanes4 fun i => acc16 w (colSamples src stride b (sx + i)) (j + 1) := by
    apply lanes4_congr
    intro i hi
    rw [← acc16_succ, Nat.mod_eq_of_lt hi]
    simp only [colSamples, Nat.add_assoc]
  have e2 : (lanes4 fun i => i32 (acc16 w (colSamples src stride b (sx + (4 + i))) j + i16 (w.getD j 0) *
      i16 ((src.getD (stride * (b.start + j) + sx + (4 + i % 4)) 0 % 65536 : ℕ) : ℤ))) =
      lanes4 fun i => acc16 w (colSamples src stride b (sx + (4 + i))) (j + 1) := by
    apply lanes4_congr
    intro i hi
    rw [← acc16_succ, Nat.mod_eq_of_lt hi]
    simp only [colSamples, Nat.add_assoc]
  rw [e1, e2]

theorem lbNarrow8Avx_of (d : ℕ) (f g : ℕ → ℤ) (hf : ∀ i, i32 (f i) = f i) (hg : ∀ i, i32 (g i) = g i) :
    toU16 (min16 (permuteMiddle (packus32 (srai32 PRECISION (lanes4 f)) setzero,
      packus32 (srai32 PRECISION (lanes4 g)) setzero)).1 (set1epi16 (2 ^ d - 1))) =
    (List.range 8).map fun i => lb16Val d (if i < 4 then f i else g (i - 4)) := by
  have hz : setzero = lanes4 fun _ => 0 := rfl
  rw [srai32_of, srai32_of, hz, packus32_of, packus32_of, permuteMiddle_of]
  dsimp only
  rw [set1epi16_of, min16_of, toU16_of]
  apply List.map_congr_left
  intro i hi
  have hi : i < 8 := by simpa using hi
  unfold lb16Val
  by_cases h4 : i < 4
  · rw [if_pos h4, if_pos h4, if_pos h4, shift_i32, hf]
  · rw [if_neg h4, if_pos (show i - 4 < 4 by omega), if_neg h4, shift_i32, hg]

theorem lbBlock8Avx_ok (h : VPre src stride w b total) (d : ℕ) :
    BlockVal 8 total (lbBlock8Avx d b src stride w)
      (fun p => lb16Val d (acc16 w (colSamples src stride b p) b.size)) := by
  intro sx hx
  have key := forRange_spec (a := 0) (b := b.size) (body := lbStep8Avx b src stride w sx)
    (inv := fun n => (lanes4 fun i => acc16 w (colSamples src stride b (sx + i)) n,
      lanes4 fun i => acc16 w (colSamples src stride b (sx + (4 + i))) n)) (Nat.zero_le _)
    (fun j _ hj => lbStep8Avx_inv h hx hj)
  simp only [acc16_zero] at key
  rw [← set1epi32_of] at key
  have e : lbBlock8Avx d b src stride w sx = (forRange 0 (min b.size w.length) (lbStep8Avx b src stride w sx)
      (set1epi32 ROUNDING_CONST, set1epi32 ROUNDING_CONST)).bind fun st =>
        some (toU16 (min16 (permuteMiddle (packus32 (srai32 PRECISION st.1) setzero,
          packus32 (srai32 PRECISION st.2) setzero)).1 (set1epi16 (2 ^ d - 1)))) := rfl
  have hr : ROUNDING_CONST = 16384 := rfl
  rw [e, Nat.min_eq_left h.weights, hr, key, Option.bind_some]
  dsimp only
  rw [lbNarrow8Avx_of _ _ _ (fun i => i32_acc16 _ _ _) (fun i => i32_acc16 _ _ _)]
  refine congrArg some (List.map_congr_left fun i _ => ?_)
  by_cases hi : i < 4
  · rw [if_pos hi]
  · rw [if_neg hi, show 4 + (i - 4) = i by omega]

theorem take4_range8 (F : ℕ → ℕ) : ((List.range 8).map F).take 4 = (List.range 4).map F := rfl

theorem store4_of (d : ℕ) (f : ℕ → ℤ) (hf : ∀ i, i32 (f i) = f i) :
    (toU16 (min16 (packus32 (srai32 PRECISION (lanes4 f)) (srai32 PRECISION (lanes4 f))) (set1epi16 (2 ^ d - 1)))).take 4 =
      (List.range 4).map fun i => lb16Val d (f i) := by
  have := lbNarrow_of d f f hf hf
  unfold lbNarrow at this
  dsimp only at this
  rw [this, take4_range8]
  apply List.map_congr_left
  intro i hi
  rw [if_pos (by simpa using hi)]

/-- The four low samples of an eight-byte load. -/
theorem unpack_load64w (v : ℕ → ℕ) : unpacklo16 (lanes8 fun c => ((if c < 4 then v c % 65536 else 0 : ℕ) : ℤ)) setzero =
    lanes4 fun i => ((v i % 65536 : ℕ) : ℤ) := by
  rw [unpacklo16_zero (fun i => by omega) (fun i => by
    have := Nat.mod_lt (v i) (show 65536 > 0 by norm_num); split_ifs <;> omega)]
  apply lanes4_congr
  intro i hi
  rw [if_pos hi]

theorem lbStep4_inv (h : VPre src stride w b total) {sx j : ℕ} (hx : sx + 4 ≤ total) (hj : j < b.size) :
    lbStep4 b src stride w sx j (lanes4 fun i => acc16 w (colSamples src stride b (sx + i)) j) =
      some (lanes4 fun i => acc16 w (colSamples src stride b (sx + i)) (j + 1)) := by
  have r0 := h.row (k := j) hj
  unfold lbStep4
  rw [h.get hj, load64w_eq (by omega)]
  simp only [Option.bind_eq_bind, Option.bind_some]
  rw [unpack_load64w (fun c => src.getD (stride * (b.start + j) + sx + c) 0),
    wdot4 _ (fun i => src.getD (stride * (b.start + j) + sx + i) 0 % 65536) (fun i => Nat.mod_lt _ (by norm_num))]
  simp only [← acc16_succ _ _ j, colSamples, Nat.add_assoc]

theorem size4 (h : VPre src stride w b total) : (if b.size ≤ 4 then b.size else min b.size w.length) = b.size := by
  have := h.weights
  split_ifs <;> omega

theorem lbBlock4_ok (h : VPre src stride w b total) (d : ℕ) :
    BlockVal 4 total (lbBlock4 d b src stride w)
      (fun p => lb16Val d (acc16 w (colSamples src stride b p) b.size)) := by
  intro sx hx
  have key := unrolled_eq (size := b.size) (step := lbStep4 b src stride w sx) (step' := lbStep4 b src stride w sx)
    (inv := fun n => lanes4 fun i => acc16 w (colSamples src stride b (sx + i)) n)
    (fun j hj => lbStep4_inv h hx hj) (fun j hj => lbStep4_inv h hx hj)
  simp only [acc16_zero] at key
  unfold lbBlock4
  dsimp only
  rw [size4 h, set1epi32_of, show ROUNDING_CONST = 16384 from rfl, key]
  simp only [Option.bind_eq_bind, Option.bind_some]
  rw [store4_of _ _ (fun i => i32_acc16 _ _ _)]

/-- Accumulator of the scalar tail. -/
def accTail (w : List ℤ) (s : ℕ → ℕ) (n : ℕ) : ℤ :=
  i32 (16384 + wsum n (fun k => w.getD k 0) (fun k => (s k : ℤ)))

theorem accTail_zero (w : List ℤ) (s : ℕ → ℕ) : accTail w s 0 = 16384 := by
  unfold accTail wsum
  rw [sum_range_zero, add_zero, i32_round]

theorem accTail_succ (w : List ℤ) (s : ℕ → ℕ) (n : ℕ) :
    i32 (accTail w s n + (s n : ℤ) * w.getD n 0) = accTail w s (n + 1) := by
  unfold accTail
  rw [i32_i32_add, mul_comm]
  simp only [wsum, sum_range_succ]
  rw [add_assoc]

theorem lbTail_ok (h : VPre src stride w b total) (d : ℕ) :
    BlockVal 1 total (lbTail d b src stride w)
      (fun p => saturateNarrow (2 ^ d - 1) (accTail w (colSamples src stride b p) b.size)) := by
  intro sx hx
  have hs : ∀ j, j < b.size → lbStep1 b src stride w sx j (accTail w (colSamples src stride b sx) j) =
      some (accTail w (colSamples src stride b sx) (j + 1)) := by
    intro j hj
    have r0 := h.row (k := j) hj
    unfold lbStep1
    rw [h.get hj, getElem?_eq_some_getD (d := 0) (show stride * (b.start + j) + sx < src.length by omega)]
    simp only [Option.bind_eq_bind, Option.bind_some]
    rw [← accTail_succ]
    rfl
  have key := unrolled_eq (size := b.size) (step := lbStep1 b src stride w sx) (step' := lbStep1 b src stride w sx)
    (inv := fun n => accTail w (colSamples src stride b sx) n) hs hs
  simp only [accTail_zero] at key
  unfold lbTail
  dsimp only
  rw [size4 h, show ROUNDING_CONST = 16384 from rfl, key]
  rfl

/-- The SSE4.1 column handler up to 12 bits. -/
theorem sseColumnLb_ok (d : ℕ) {dst : List ℕ} (h : VPre src stride w b dst.length) :
    ∃ r, sseColumnLb d b src dst stride w = some r ∧ r.length = dst.length ∧
      ∀ p, p < dst.length → r[p]? = some (columnVal 16 dst.length
        (fun p => lb16Val d (acc16 w (colSamples src stride b p) b.size))
        (fun p => saturateNarrow (2 ^ d - 1) (accTail w (colSamples src stride b p) b.size)) p) :=
  sseChain (lbBlock_ok h 2 d) (lbBlock_ok h 1 d) (lbBlock4_ok h d) (lbTail_ok h d) dst rfl

/-- The AVX2 column handler up to 12 bits. -/
theorem avxColumnLb_ok (d : ℕ) {dst : List ℕ} (h : VPre src stride w b dst.length) :
    ∃ r, avxColumnLb d b src dst stride w = some r ∧ r.length = dst.length ∧
      ∀ p, p < dst.length → r[p]? = some (columnVal 32 dst.length
        (fun p => lb16Val d (acc16 w (colSamples src stride b p) b.size))
        (fun p => saturateNarrow (2 ^ d - 1) (accTail w (colSamples src stride b p) b.size)) p) :=
  avxChain (lbBlock_ok h 4 d) (lbBlock_ok h 2 d) (lbBlock8Avx_ok h d) (lbBlock4_ok h d) (lbTail_ok h d) dst rfl

end PicScale
