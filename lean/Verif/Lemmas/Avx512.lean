import Verif.Model.Avx512
import Verif.Lemmas.X86Resize
import Verif.Lemmas.SimdPassG

/-!
The AVX-512 and VNNI 8-bit handlers: what they compute and that they stay in bounds.
-/

namespace PicScale

open Finset Spec

/-! ### `dpwssd` is an addition and a `madd` -/

theorem dpwssdLanes_eq (a b c : List ℤ) :
    dpwssdLanes a b c =
      List.zipWith (fun x y => i32 (x + y)) a (maddLanes b c) := by
  induction a generalizing b c with
  | nil => rfl
  | cons a as ih =>
    match b, c with
    | b :: b' :: bs, c :: c' :: cs =>
      simp only [dpwssdLanes, maddLanes, List.zipWith_cons_cons, ih, i32_add_i32, add_assoc]
    | [], _ => cases c <;> rfl
    | [_], _ => cases c <;> rfl
    | _ :: _ :: _, [] => rfl
    | _ :: _ :: _, [_] => rfl

theorem maddLanes_i32 (b c : List ℤ) : (maddLanes b c).map i32 = maddLanes b c := by
  match b, c with
  | b :: b' :: bs, c :: c' :: cs =>
    simp only [maddLanes, List.map_cons, i32_i32, maddLanes_i32]
  | [], _ => rfl
  | [_], _ => cases c <;> rfl
  | _ :: _ :: _, [] => rfl
  | _ :: _ :: _, [_] => rfl

/-- `_mm_dpwssd_avx_epi32` is `_mm_add_epi32(a, _mm_madd_epi16(b, c))`, for every register content. -/
theorem dpwssd_eq (a b c : Reg) : dpwssd a b c = add32 a (madd16 b c) := by
  unfold dpwssd add32 madd16
  rw [lanes32_ofLanes32, maddLanes_i32, dpwssdLanes_eq]

theorem dpwssdX2_eq (a b c : Reg × Reg) : dpwssdX2 a b c = dot16x2 a b c := by
  unfold dpwssdX2 dot16x2
  rw [dpwssd_eq, dpwssd_eq]

/-! ### `src/avx512/vertical_u8_lp.rs` -/

theorem unrolled26_eq {σ : Type} {size : ℕ} {step : ℕ → σ → Option σ} {inv : ℕ → σ}
    (hs : ∀ j, j < size → step j (inv j) = some (inv (j + 1))) :
    unrolled26 size step (inv 0) = some (inv size) := by
  unfold unrolled26
  split_ifs with h2 h3 h4 h5 h6
  · subst h2
    simp [hs 0 (by omega), hs 1 (by omega)]
  · subst h3
    simp [hs 0 (by omega), hs 1 (by omega), hs 2 (by omega)]
  · subst h4
    simp [hs 0 (by omega), hs 1 (by omega), hs 2 (by omega), hs 3 (by omega)]
  · subst h5
    simp [hs 0 (by omega), hs 1 (by omega), hs 2 (by omega), hs 3 (by omega), hs 4 (by omega)]
  · subst h6
    simp [hs 0 (by omega), hs 1 (by omega), hs 2 (by omega), hs 3 (by omega), hs 4 (by omega),
      hs 5 (by omega)]
  · exact forRange_spec (by omega) (fun j _ hj => hs j hj)

/-- Byte `c` of a masked load of `m` bytes. -/
def maskByte (src : List ℕ) (off m c : ℕ) : ℕ := if c < m then src.getD (off + c) 0 % 256 else 0

theorem maskByte_lt (src : List ℕ) (off m c : ℕ) : maskByte src off m c < 256 := by
  unfold maskByte
  split_ifs
  · exact Nat.mod_lt _ (by norm_num)
  · norm_num

theorem maskzLoad512_eq {src : List ℕ} {off m : ℕ} (hm : m ≤ 64) (h : off + m ≤ src.length) :
    maskzLoad512 src off m =
      some ((List.range 4).map fun r => bytesOf fun c => maskByte src off m (16 * r + c)) := by
  unfold maskzLoad512
  rw [loadBytes_eq h, Option.map_some]
  have e : (List.range m).map (fun c => src.getD (off + c) 0 % 256) ++ List.replicate (64 - m) 0 =
      (List.range 64).map (maskByte src off m) := by
    apply List.ext_getElem?
    intro p
    by_cases hp : p < 64
    · rw [List.getElem?_map, List.getElem?_range hp, Option.map_some]
      by_cases hq : p < m
      · rw [List.getElem?_append_left (by simpa using hq)]
        simp [maskByte, hq]
      · rw [List.getElem?_append_right (by simpa using hq)]
        rw [List.getElem?_replicate, if_pos (by simp; omega)]
        simp [maskByte, hq]
    · rw [List.getElem?_eq_none (by simp; omega), List.getElem?_eq_none (by simp; omega)]
  rw [e]
  rfl

/-- Accumulator of sample `c` of a chunk after `n` rows. -/
def lp512Acc (src : List ℕ) (stride : ℕ) (w : List ℤ) (b : Bounds) (x m n c : ℕ) : ℤ :=
  i16 (32 + ∑ k ∈ range n, lpTerm (maskByte src (stride * (b.start + k) + x) m c) (i16 (w.getD k 0)))

theorem lp512Acc_succ (src : List ℕ) (stride : ℕ) (w : List ℤ) (b : Bounds) (x m n c : ℕ) :
    i16 (lp512Acc src stride w b x m n c +
      lpTerm (maskByte src (stride * (b.start + n) + x) m c) (i16 (w.getD n 0))) =
    lp512Acc src stride w b x m (n + 1) c := by
  unfold lp512Acc
  rw [i16_i16_add, sum_range_succ]
  congr 1
  ring

theorem lp512Acc_in {src : List ℕ} {stride : ℕ} {w : List ℤ} {b : Bounds} {x m n c : ℕ} (h : c < m) :
    lp512Acc src stride w b x m n c = lpAcc src stride w b 0 n (x + c) := by
  rw [← lpAcc_at]
  unfold lp512Acc lpAcc maskByte
  simp only [if_pos h, Nat.add_assoc]

/-- The state of a chunk after `n` rows. -/
def lp512State (src : List ℕ) (stride : ℕ) (w : List ℤ) (b : Bounds) (x m n : ℕ) : List (Reg × Reg) :=
  (List.range 4).map fun r => pairOf fun c => lp512Acc src stride w b x m n (16 * r + c)

theorem lp512Step_inv {src : List ℕ} {stride : ℕ} {w : List ℤ} {b : Bounds} {total x m j : ℕ}
    (h : VPre src stride w b total) (hm : m ≤ 64) (hx : x + m ≤ total) (hj : j < b.size) :
    lp512Step b src stride w x m j (lp512State src stride w b x m j) =
      some (lp512State src stride w b x m (j + 1)) := by
  have r0 := h.row (k := j) hj
  unfold lp512Step
  rw [h.get hj, maskzLoad512_eq hm (by omega)]
  simp only [Option.bind_eq_bind, Option.bind_some]
  unfold lp512State
  rw [List.zipWith_map, List.zipWith_self]
  refine congrArg some (List.map_congr_left fun r _ => ?_)
  exact (mdot_of (fun c => lp512Acc src stride w b x m j (16 * r + c)) (fun c => maskByte_lt _ _ _ _) _).trans
    (congrArg pairOf (funext fun c => lp512Acc_succ _ _ _ _ _ _ _ _))

theorem lp512Chunk_ok {src : List ℕ} {stride : ℕ} {w : List ℤ} {b : Bounds} {total x m : ℕ}
    (h : VPre src stride w b total) (hm : m ≤ 64) (hx : x + m ≤ total) (dst : List ℕ)
    (hl : dst.length = total) :
    ∃ r, lp512Chunk b src stride w x m dst = some r ∧ r.length = total ∧
      (∀ p, x ≤ p → p < x + m → r[p]? = some (lpAt src stride w b p)) ∧
      (∀ p, (p < x ∨ x + m ≤ p) → r[p]? = dst[p]?) := by
  obtain ⟨r, a⟩ := write_block (B := m) (x := x) (total := total)
    (val := lpAt src stride w b) dst hl (by omega)
  refine ⟨r, ?_, a.2⟩
  unfold lp512Chunk
  rw [show List.replicate 4 (set1epi16 LP_ROUNDING, set1epi16 LP_ROUNDING) =
    lp512State src stride w b x m 0 from rfl,
    unrolled26_eq (inv := lp512State src stride w b x m) (fun j hj => lp512Step_inv h hm hx hj)]
  simp only [Option.bind_eq_bind, Option.bind_some]
  unfold maskStore512 lp512State
  rw [List.map_map]
  have e : ((List.range 4).map ((fun s : Reg × Reg => packus16 (srai16 6 s.1) (srai16 6 s.2)) ∘
      fun r => pairOf fun c => lp512Acc src stride w b x m b.size (16 * r + c))).flatten =
      (List.range 64).map fun c => clamp 255 (lp512Acc src stride w b x m b.size c >>> 6) := by
    have e2 : ∀ r c, i16 (lp512Acc src stride w b x m b.size (16 * r + c)) =
      lp512Acc src stride w b x m b.size (16 * r + c) := fun r c => by unfold lp512Acc; exact i16_i16 _
    simp only [Function.comp_def, lp_pack, e2]
    rfl
  rw [e, ← List.map_take, List.take_range, Nat.min_eq_left hm, ← a.1]
  congr 1
  apply List.map_congr_left
  intro c hc
  rw [lp512Acc_in (List.mem_range.1 hc)]
  rfl

theorem avx512ColumnLp_spec {src dst : List ℕ} {stride : ℕ} {w : List ℤ} {b : Bounds}
    (h : VPre src stride w b dst.length) :
    avx512ColumnLp b src dst stride w =
      some ((List.range dst.length).map (lpAt src stride w b)) := by
  have key : ∀ fuel cx (d : List ℕ), d.length = dst.length → dst.length ≤ fuel + cx →
      (∀ p, p < cx → p < dst.length → d[p]? = some (lpAt src stride w b p)) →
      ∃ cx' r, whileBlocks 0 64 dst.length
        (fun px d => lp512Chunk b src stride w px (min 64 (dst.length - px)) d) fuel cx d = some (cx', r) ∧
        r.length = dst.length ∧ ∀ p, p < dst.length → r[p]? = some (lpAt src stride w b p) := by
    intro fuel
    induction fuel with
    | zero =>
      intro cx d hl hf hv
      exact ⟨cx, d, rfl, hl, fun p hp => hv p (by omega) hp⟩
    | succ fuel ih =>
      intro cx d hl hf hv
      unfold whileBlocks
      by_cases hc : cx + 0 < dst.length
      · rw [if_pos hc]
        obtain ⟨r, e1, e2, e3, e4⟩ := lp512Chunk_ok h (x := cx) (m := min 64 (dst.length - cx))
          (Nat.min_le_left _ _) (by omega) d hl
        rw [e1]
        simp only [Option.bind_eq_bind, Option.bind_some]
        refine ih (cx + 64) r e2 (by omega) fun p hp hpl => ?_
        by_cases hq : p < cx
        · rw [e4 p (Or.inl hq), hv p hq hpl]
        · exact e3 p (by omega) (by omega)
      · rw [if_neg hc]
        exact ⟨cx, d, rfl, hl, fun p hp => hv p (by omega) hp⟩
  obtain ⟨cx', r, e1, e2, e3⟩ := key dst.length 0 dst rfl (by omega) (fun p hp _ => by omega)
  unfold avx512ColumnLp
  dsimp only
  rw [e1]
  simp only [Option.bind_eq_bind, Option.bind_some]
  congr 1
  apply List.ext_getElem?
  intro p
  by_cases hp : p < dst.length
  · rw [e3 p hp, List.getElem?_map, List.getElem?_range hp, Option.map_some]
  · rw [List.getElem?_eq_none (by omega), List.getElem?_eq_none (by simp; omega)]

/-! ### `src/avx512/rgba_u8_dot.rs` -/

/-- Accumulator of channel `c` after `n` pixels of the window, starting from `v0`. -/
def vAcc (v0 : ℤ) (src : List ℕ) (o : ℕ) (w : List ℤ) (b : Bounds) (n c : ℕ) : ℤ :=
  i32 (v0 + wsum n (fun k => i16 (w.getD k 0)) (fun k => (pxb 4 src o b k c : ℤ)))

theorem vAcc_succ (v0 : ℤ) (src : List ℕ) (o : ℕ) (w : List ℤ) (b : Bounds) (n c : ℕ) :
    vAcc v0 src o w b (n + 1) c =
      i32 (vAcc v0 src o w b n c + (pxb 4 src o b n c : ℤ) * i16 (w.getD n 0)) := by
  unfold vAcc
  rw [i32_i32_add]
  simp only [wsum, sum_range_succ]
  congr 1
  ring

theorem vAcc_add2 (v0 : ℤ) (src : List ℕ) (o : ℕ) (w : List ℤ) (b : Bounds) (n c : ℕ) :
    vAcc v0 src o w b (n + 2) c =
      i32 (vAcc v0 src o w b n c + ((pxb 4 src o b n c : ℤ) * i16 (w.getD n 0) +
        (pxb 4 src o b (n + 1) c : ℤ) * i16 (w.getD (n + 1) 0))) := by
  rw [vAcc_succ, vAcc_succ, i32_i32_add, add_assoc]

theorem vAcc_add4 (v0 : ℤ) (src : List ℕ) (o : ℕ) (w : List ℤ) (b : Bounds) (n c : ℕ) :
    vAcc v0 src o w b (n + 4) c = i32 (i32 (vAcc v0 src o w b n c +
      ((pxb 4 src o b n c : ℤ) * i16 (w.getD n 0) +
        (pxb 4 src o b (n + 1) c : ℤ) * i16 (w.getD (n + 1) 0))) +
      ((pxb 4 src o b (n + 2) c : ℤ) * i16 (w.getD (n + 2) 0) +
        (pxb 4 src o b (n + 3) c : ℤ) * i16 (w.getD (n + 3) 0))) := by
  rw [← vAcc_add2]
  exact vAcc_add2 v0 src o w b (n + 2) c

/-- State of one row. -/
def VnniInv (v0 : ℤ) (src : List ℕ) (w : List ℤ) (b : Bounds) (o n : ℕ) (s : Reg) : Prop :=
  s = ofLanes32 [vAcc v0 src o w b n 0, vAcc v0 src o w b n 1, vAcc v0 src o w b n 2,
    vAcc v0 src o w b n 3]

theorem vnni2_inv {v0 : ℤ} {src offs : List ℕ} {w : List ℤ} {b : Bounds} (h : HPre 4 src offs w b) {jx : ℕ}
    (hj : jx + 2 ≤ b.size) {o : ℕ} (ho : o ∈ offs) {s : Reg} (hs : VnniInv v0 src w b o jx s) :
    ∃ s', vnni2 src w b jx o s = some s' ∧ VnniInv v0 src w b o (jx + 2) s' := by
  have hr := h.room ho hj
  have := h.weights
  unfold vnni2 load64
  rw [loadWeights_eq (by omega), loadBytes_px0 (by norm_num) (by omega), hs]
  refine ⟨_, rfl, ?_⟩
  rw [dpwssd_eq]
  refine (rgbaSse2_core (fun i => pxb_lt _ _ _ _ _ _) _ _ _ _ (w.getD jx 0) (w.getD (jx + 1) 0)).trans ?_
  simp only [vAcc_add2, Nat.reduceDiv, Nat.reduceMod, Nat.add_zero]

theorem vnni1_core {p : ℕ → ℕ} (hp : ∀ i, p i < 256) (x y z t w : ℤ) :
    add32 (ofLanes32 [x, y, z, t]) (madd16 (shuffle8 ((List.range 4).map p ++
      List.replicate 12 0) vnniShuffle1) (shuffle8 (ofLanes16 [w] ++ List.replicate 14 0) vnniWeightsLo)) =
    ofLanes32 [i32 (x + (p 0 : ℤ) * i16 w), i32 (y + (p 1 : ℤ) * i16 w), i32 (z + (p 2 : ℤ) * i16 w),
        i32 (t + (p 3 : ℤ) * i16 w)] := by
  have e1 : shuffle8 ((List.range 4).map p ++ List.replicate 12 0) vnniShuffle1 =
      [p 0, 0, 0, 0, p 1, 0, 0, 0, p 2, 0, 0, 0, p 3, 0, 0, 0] := rfl
  have e2 : shuffle8 (ofLanes16 [w] ++ List.replicate 14 0) vnniWeightsLo =
      set1bytes32 (ofLanes16 [w, 0]) := rfl
  rw [e1, e2, dot2 (hp 0) (hp 1) (hp 2) (hp 3) (by norm_num) (by norm_num) (by norm_num) (by norm_num)]
  simp

theorem vnni1_inv {v0 : ℤ} {src offs : List ℕ} {w : List ℤ} {b : Bounds} (h : HPre 4 src offs w b) {jx : ℕ}
    (hj : jx + 1 ≤ b.size) {o : ℕ} (ho : o ∈ offs) {s : Reg} (hs : VnniInv v0 src w b o jx s) :
    ∃ s', vnni1 src w b jx o s = some s' ∧ VnniInv v0 src w b o (jx + 1) s' := by
  have hr := h.room ho hj
  have := h.weights
  rw [← Nat.add_assoc, Nat.add_mul] at hr
  unfold vnni1 load32
  rw [loadWeights_eq (by omega), loadBytes_px0 (by norm_num) (by omega), hs]
  refine ⟨_, rfl, ?_⟩
  rw [dpwssd_eq]
  refine (vnni1_core (fun i => pxb_lt _ _ _ _ _ _) _ _ _ _ (w.getD jx 0)).trans ?_
  simp only [vAcc_succ, Nat.reduceDiv, Nat.reduceMod, Nat.add_zero]

/-- State of one row while it is 256 bits wide. -/
def VnniWideInv (v0 : ℤ) (src : List ℕ) (w : List ℤ) (b : Bounds) (o n : ℕ) (s : Reg × Reg) : Prop :=
  ∃ f g : ℕ → ℤ, s = (ofLanes32 [f 0, f 1, f 2, f 3], ofLanes32 [g 0, g 1, g 2, g 3]) ∧
    ∀ c, i32 (f c + g c) = vAcc v0 src o w b n c

theorem vnni4_core {p : ℕ → ℕ} (hp : ∀ i, p i < 256) (x y z t x' y' z' t' w0 w1 w2 w3 : ℤ) :
    dot16x2 (ofLanes32 [x, y, z, t], ofLanes32 [x', y', z', t'])
      (shuffle8x2 (permute50 ((List.range 16).map p)) rgbaShuffleLo)
      (shuffle8x2 (shuffle32 [0, 0, 0, 0] (ofLanes16 [w0, w1, w2, w3] ++ List.replicate 8 0),
        shuffle32 [1, 1, 1, 1] (ofLanes16 [w0, w1, w2, w3] ++ List.replicate 8 0)) vnniWeightsLo) =
    (ofLanes32 [i32 (x + ((p 0 : ℤ) * i16 w0 + (p 4 : ℤ) * i16 w1)),
       i32 (y + ((p 1 : ℤ) * i16 w0 + (p 5 : ℤ) * i16 w1)),
       i32 (z + ((p 2 : ℤ) * i16 w0 + (p 6 : ℤ) * i16 w1)),
       i32 (t + ((p 3 : ℤ) * i16 w0 + (p 7 : ℤ) * i16 w1))],
     ofLanes32 [i32 (x' + ((p 8 : ℤ) * i16 w2 + (p 12 : ℤ) * i16 w3)),
       i32 (y' + ((p 9 : ℤ) * i16 w2 + (p 13 : ℤ) * i16 w3)),
       i32 (z' + ((p 10 : ℤ) * i16 w2 + (p 14 : ℤ) * i16 w3)),
       i32 (t' + ((p 11 : ℤ) * i16 w2 + (p 15 : ℤ) * i16 w3))]) := by
  unfold dot16x2 shuffle8x2
  dsimp only
  have e1 : shuffle8 (permute50 ((List.range 16).map p)).1 rgbaShuffleLo =
      [p 0, 0, p 4, 0, p 1, 0, p 5, 0, p 2, 0, p 6, 0, p 3, 0, p 7, 0] := rfl
  have e2 : shuffle8 (permute50 ((List.range 16).map p)).2 rgbaShuffleLo =
      [p 8, 0, p 12, 0, p 9, 0, p 13, 0, p 10, 0, p 14, 0, p 11, 0, p 15, 0] := rfl
  have e3 : shuffle8 (shuffle32 [0, 0, 0, 0] (ofLanes16 [w0, w1, w2, w3] ++ List.replicate 8 0))
      vnniWeightsLo = set1bytes32 (ofLanes16 [w0, w1]) := rfl
  have e4 : shuffle8 (shuffle32 [1, 1, 1, 1] (ofLanes16 [w0, w1, w2, w3] ++ List.replicate 8 0))
      vnniWeightsLo = set1bytes32 (ofLanes16 [w2, w3]) := rfl
  rw [e1, e2, e3, e4, dot2 (hp 0) (hp 1) (hp 2) (hp 3) (hp 4) (hp 5) (hp 6) (hp 7),
    dot2 (hp 8) (hp 9) (hp 10) (hp 11) (hp 12) (hp 13) (hp 14) (hp 15)]

theorem vnni8_core {p : ℕ → ℕ} (hp : ∀ i, p i < 256) (x y z t x' y' z' t' w0 w1 w2 w3 w4 w5 w6 w7 : ℤ)
    (lo hi full : Reg) (hlo : lo = (List.range 16).map p)
    (hhi : hi = (List.range 16).map (fun i => p (16 + i)))
    (hfull : full = ofLanes16 [w0, w1, w2, w3, w4, w5, w6, w7]) :
    dot16x2 (dot16x2 (ofLanes32 [x, y, z, t], ofLanes32 [x', y', z', t'])
      (shuffle8x2 (lo, hi) rgbaShuffleLo) (shuffle8x2 (permute50 full) vnniWeightsLo))
      (shuffle8x2 (lo, hi) rgbaShuffleHi) (shuffle8x2 (permute50 full) vnniWeightsHi) =
    (ofLanes32 [
       i32 (i32 (x + ((p 0 : ℤ) * i16 w0 + (p 4 : ℤ) * i16 w1)) + ((p 8 : ℤ) * i16 w2 + (p 12 : ℤ) * i16 w3)),
       i32 (i32 (y + ((p 1 : ℤ) * i16 w0 + (p 5 : ℤ) * i16 w1)) + ((p 9 : ℤ) * i16 w2 + (p 13 : ℤ) * i16 w3)),
       i32 (i32 (z + ((p 2 : ℤ) * i16 w0 + (p 6 : ℤ) * i16 w1)) + ((p 10 : ℤ) * i16 w2 + (p 14 : ℤ) * i16 w3)),
       i32 (i32 (t + ((p 3 : ℤ) * i16 w0 + (p 7 : ℤ) * i16 w1)) + ((p 11 : ℤ) * i16 w2 + (p 15 : ℤ) * i16 w3))],
     ofLanes32 [
       i32 (i32 (x' + ((p 16 : ℤ) * i16 w4 + (p 20 : ℤ) * i16 w5)) + ((p 24 : ℤ) * i16 w6 + (p 28 : ℤ) * i16 w7)),
       i32 (i32 (y' + ((p 17 : ℤ) * i16 w4 + (p 21 : ℤ) * i16 w5)) + ((p 25 : ℤ) * i16 w6 + (p 29 : ℤ) * i16 w7)),
       i32 (i32 (z' + ((p 18 : ℤ) * i16 w4 + (p 22 : ℤ) * i16 w5)) + ((p 26 : ℤ) * i16 w6 + (p 30 : ℤ) * i16 w7)),
       i32 (i32 (t' + ((p 19 : ℤ) * i16 w4 + (p 23 : ℤ) * i16 w5)) + ((p 27 : ℤ) * i16 w6 + (p 31 : ℤ) * i16 w7))]) := by
  subst hlo hhi hfull
  unfold dot16x2 shuffle8x2
  dsimp only
  have e1 : shuffle8 ((List.range 16).map p) rgbaShuffleLo =
      [p 0, 0, p 4, 0, p 1, 0, p 5, 0, p 2, 0, p 6, 0, p 3, 0, p 7, 0] := rfl
  have e2 : shuffle8 ((List.range 16).map p) rgbaShuffleHi =
      [p 8, 0, p 12, 0, p 9, 0, p 13, 0, p 10, 0, p 14, 0, p 11, 0, p 15, 0] := rfl
  have e3 : shuffle8 ((List.range 16).map (fun i => p (16 + i))) rgbaShuffleLo =
      [p 16, 0, p 20, 0, p 17, 0, p 21, 0, p 18, 0, p 22, 0, p 19, 0, p 23, 0] := rfl
  have e4 : shuffle8 ((List.range 16).map (fun i => p (16 + i))) rgbaShuffleHi =
      [p 24, 0, p 28, 0, p 25, 0, p 29, 0, p 26, 0, p 30, 0, p 27, 0, p 31, 0] := rfl
  have f1 : shuffle8 (permute50 (ofLanes16 [w0, w1, w2, w3, w4, w5, w6, w7])).1 vnniWeightsLo =
      set1bytes32 (ofLanes16 [w0, w1]) := rfl
  have f2 : shuffle8 (permute50 (ofLanes16 [w0, w1, w2, w3, w4, w5, w6, w7])).1 vnniWeightsHi =
      set1bytes32 (ofLanes16 [w2, w3]) := rfl
  have f3 : shuffle8 (permute50 (ofLanes16 [w0, w1, w2, w3, w4, w5, w6, w7])).2 vnniWeightsLo =
      set1bytes32 (ofLanes16 [w4, w5]) := rfl
  have f4 : shuffle8 (permute50 (ofLanes16 [w0, w1, w2, w3, w4, w5, w6, w7])).2 vnniWeightsHi =
      set1bytes32 (ofLanes16 [w6, w7]) := rfl
  rw [e1, e2, e3, e4, f1, f2, f3, f4, dot2 (hp 0) (hp 1) (hp 2) (hp 3) (hp 4) (hp 5) (hp 6) (hp 7),
    dot2 (hp 8) (hp 9) (hp 10) (hp 11) (hp 12) (hp 13) (hp 14) (hp 15),
    dot2 (hp 16) (hp 17) (hp 18) (hp 19) (hp 20) (hp 21) (hp 22) (hp 23),
    dot2 (hp 24) (hp 25) (hp 26) (hp 27) (hp 28) (hp 29) (hp 30) (hp 31)]

theorem vnni4_inv {v0 : ℤ} {src offs : List ℕ} {w : List ℤ} {b : Bounds} (h : HPre 4 src offs w b) {jx : ℕ}
    (hj : jx + 4 ≤ b.size) {o : ℕ} (ho : o ∈ offs) {s : Reg × Reg}
    (hs : VnniWideInv v0 src w b o jx s) :
    ∃ s', vnni4 src w b jx o s = some s' ∧ VnniWideInv v0 src w b o (jx + 4) s' := by
  have hr := h.room ho hj
  have := h.weights
  obtain ⟨f, g, hs, hfg⟩ := hs
  unfold vnni4 load128
  rw [loadWeights_eq (by omega), loadBytes_px0 (by norm_num) (by omega), hs]
  simp only [Option.bind_eq_bind, Option.bind_some, dpwssdX2_eq]
  let F : ℕ → ℤ := fun c =>
    i32 (f c + ((pxb 4 src o b jx c : ℤ) * i16 (w.getD jx 0) +
      (pxb 4 src o b (jx + 1) c : ℤ) * i16 (w.getD (jx + 1) 0)))
  let G : ℕ → ℤ := fun c =>
    i32 (g c + ((pxb 4 src o b (jx + 2) c : ℤ) * i16 (w.getD (jx + 2) 0) +
      (pxb 4 src o b (jx + 3) c : ℤ) * i16 (w.getD (jx + 3) 0)))
  refine ⟨_, rfl, F, G,
    (vnni4_core (fun i => pxb_lt _ _ _ _ _ _) _ _ _ _ _ _ _ _ (w.getD jx 0) (w.getD (jx + 1) 0)
      (w.getD (jx + 2) 0) (w.getD (jx + 3) 0)).trans ?_, ?_⟩
  · simp only [F, G, Nat.reduceDiv, Nat.reduceMod, Nat.add_zero]
  intro c
  rw [vAcc_add4]
  simp only [F, G]
  rw [i32_wide (hfg c)]

theorem vnni8_inv {v0 : ℤ} {src offs : List ℕ} {w : List ℤ} {b : Bounds} (h : HPre 4 src offs w b) {jx : ℕ}
    (hj : jx + 8 ≤ b.size) {o : ℕ} (ho : o ∈ offs) {s : Reg × Reg}
    (hs : VnniWideInv v0 src w b o jx s) :
    ∃ s', vnni8 src w b jx o s = some s' ∧ VnniWideInv v0 src w b o (jx + 8) s' := by
  have hr := h.room ho hj
  have := h.weights
  obtain ⟨f, g, hs, hfg⟩ := hs
  unfold vnni8 load128
  rw [loadWeights_eq (by omega), loadBytes_px0 (by norm_num) (by omega),
    loadBytes_px (by norm_num) (by omega), hs]
  simp only [Option.bind_eq_bind, Option.bind_some, dpwssdX2_eq]
  let T : ℕ → ℕ → ℤ := fun k c => (pxb 4 src o b (jx + k) c : ℤ) * i16 (w.getD (jx + k) 0) +
      (pxb 4 src o b (jx + (k + 1)) c : ℤ) * i16 (w.getD (jx + (k + 1)) 0)
  let F : ℕ → ℤ := fun c => i32 (i32 (f c + T 0 c) + T 2 c)
  let G : ℕ → ℤ := fun c => i32 (i32 (g c + T 4 c) + T 6 c)
  refine ⟨_, rfl, F, G, (vnni8_core (p := fun i => pxb 4 src o b (jx + i / 4) (i % 4))
    (fun i => pxb_lt _ _ _ _ _ _) _ _ _ _ _ _ _ _ (w.getD jx 0)
    (w.getD (jx + 1) 0) (w.getD (jx + 2) 0) (w.getD (jx + 3) 0) (w.getD (jx + 4) 0)
    (w.getD (jx + 5) 0) (w.getD (jx + 6) 0) (w.getD (jx + 7) 0) _ _ _ rfl rfl ?_).trans ?_, ?_⟩
  · rfl
  · simp only [F, G, T, Nat.reduceDiv, Nat.reduceMod, Nat.add_zero, Nat.reduceAdd]
  intro c
  have e1 : vAcc v0 src o w b (jx + 8) c = _ := vAcc_add4 v0 src o w b (jx + 4) c
  rw [e1, vAcc_add4, ← hfg c]
  simp only [F, G, i32_i32_add, i32_add_i32, T, Nat.add_zero,
    Nat.add_assoc, Nat.reduceAdd]
  congr 1
  ring

/-- What the accumulator of a window starts with. -/
def vStart (vld : ℤ) (b : Bounds) : ℤ := if b.size > 4 then 16384 else vld

/-- The value of a VNNI handler. -/
def vVal (vld : ℤ) (src : List ℕ) (o : ℕ) (w : List ℤ) (b : Bounds) (c : ℕ) : ℕ :=
  packu (vAcc (vStart vld b) src o w b b.size c)

theorem vnniWide_spec {vld : ℤ} (hv : i32 vld = vld) {src offs : List ℕ} {w : List ℤ} {b : Bounds}
    (h : HPre 4 src offs w b) :
    ∃ n st, vnniWide vld src offs w b = some (4 * n, st) ∧ 4 * n < b.size ∧
      List.Forall₂ (fun o s => VnniInv (vStart vld b) src w b o (4 * n) s) offs st := by
  have h0 := h.size
  unfold vnniWide vStart
  by_cases hb : b.size > 4
  · rw [if_pos hb, if_pos hb]
    obtain ⟨n1, s1, a1, a2, a3, a4, a5⟩ := rowsLoop_inv (P := VnniWideInv 16384 src w b) (margin := 8)
      (step := 8) (size := b.size) (jx := 0) (offs := offs) (f := vnni8 src w b)
      (st := offs.map fun _ => (setr32 [ROUNDING_CONST, ROUNDING_CONST, ROUNDING_CONST, ROUNDING_CONST], setzero))
      (by omega) (by omega) (fun m hm o ho s hs => vnni8_inv h (by omega) ho hs) (by omega)
      (forall₂_init offs _ fun o _ => ⟨fun c => 16384, fun _ => 0, rfl, by
        intro c
        rfl⟩)
    obtain ⟨n2, s2, b1, b2, b3, b4, b5⟩ := rowsLoop_inv (P := VnniWideInv 16384 src w b) (margin := 4)
      (step := 4) (size := b.size) (jx := 0 + n1 * 8) (offs := offs) (f := vnni4 src w b)
      (st := s1) (by omega) (by omega)
      (fun m hm o ho s hs => vnni4_inv h (by omega) ho hs) (by omega) a2
    refine ⟨2 * n1 + n2, s2.map fun s => add32 s.1 s.2, ?_, by omega, ?_⟩
    · dsimp only
      rw [a1]
      simp only [Option.bind_eq_bind, Option.bind_some]
      rw [b1]
      simp only [Option.bind_some]
      congr 2
      omega
    · refine forall₂_map b2 fun o _ s hs => ?_
      obtain ⟨f, g, hs, hfg⟩ := hs
      have e : 4 * (2 * n1 + n2) = 0 + n1 * 8 + n2 * 4 := by omega
      unfold VnniInv
      rw [e, hs, ← hfg 0, ← hfg 1, ← hfg 2, ← hfg 3]
      unfold add32
      simp only [lanes32_ofLanes32, List.map_cons, List.map_nil, List.zipWith_cons_cons,
        List.zipWith_nil_left, i32_i32_add, i32_add_i32]
  · rw [if_neg hb, if_neg hb]
    refine ⟨0, _, rfl, by omega, forall₂_init offs _ fun o _ => ?_⟩
    unfold VnniInv vAcc
    simp only [Nat.mul_zero, wsum, sum_range_zero, add_zero, hv]
    rfl

theorem vnniRows_spec {vld : ℤ} (hv : i32 vld = vld) {src offs : List ℕ} {w : List ℤ} {b : Bounds}
    (h : HPre 4 src offs w b) :
    vnniRows vld src offs w b = some (offs.map fun o => (List.range 4).map (vVal vld src o w b)) := by
  obtain ⟨n, st, w1, w2, w3⟩ := vnniWide_spec hv h
  obtain ⟨n2, s2, b1, b2, b3, b4, b5⟩ := rowsLoop_inv (P := VnniInv (vStart vld b) src w b) (margin := 2) (step := 2)
    (size := b.size) (jx := 4 * n) (offs := offs) (f := vnni2 src w b)
    (st := st) (by omega) (by omega)
    (fun m hm o ho s hs => vnni2_inv h (by omega) ho hs) (by omega) w3
  obtain ⟨n3, s3, c1, c2, c3, c4, c5⟩ := rowsLoop_inv (P := VnniInv (vStart vld b) src w b) (margin := 0) (step := 1)
    (size := b.size) (jx := 4 * n + n2 * 2) (offs := offs) (f := vnni1 src w b)
    (st := s2) (by omega) (by omega)
    (fun m hm o ho s hs => vnni1_inv h (by omega) ho hs) (by omega) b2
  unfold vnniRows
  rw [w1]
  simp only [Option.bind_eq_bind, Option.bind_some]
  rw [b1]
  simp only [Option.bind_some]
  rw [c1]
  simp only [Option.bind_some]
  congr 1
  refine forall₂_eq c2 fun o _ s hs => ?_
  have e : 4 * n + n2 * 2 + n3 * 1 = b.size := by omega
  rw [e] at hs
  have e2 : ∀ c, i32 (vAcc (vStart vld b) src o w b b.size c) = vAcc (vStart vld b) src o w b b.size c :=
    fun c => by unfold vAcc; exact i32_i32 _
  rw [hs, compressI32_of]
  simp only [e2]
  rfl

end PicScale
