import Verif.Model.NeonF32
import Verif.Lemmas.X86F32Pass

/-! The f32 handlers on AArch64: what they compute, and when they stay in bounds. -/

namespace PicScale

open Spec

variable {A : Type}

/-! ### vertical -/

section vertical

variable {src : List A} {stride : ℕ} {b : Bounds} {w : List ℚ} {total : ℕ}

theorem whileBlocks_steps {margin step total : ℕ} {body : ℕ → List A → Option (List A)} :
    ∀ fuel cx (dst : List A) {cx' : ℕ} {r : List A},
      whileBlocks margin step total body fuel cx dst = some (cx', r) → ∃ n, cx' = cx + n * step := by
  intro fuel
  induction fuel with
  | zero =>
    intro cx dst cx' r h
    simp only [whileBlocks, Option.some.injEq, Prod.mk.injEq] at h
    exact ⟨0, by omega⟩
  | succ fuel ih =>
    intro cx dst cx' r h
    unfold whileBlocks at h
    split_ifs at h
    · cases hb : body cx dst with
      | none => rw [hb] at h; simp at h
      | some d =>
        rw [hb] at h
        obtain ⟨n, hn⟩ := ih _ _ h
        exact ⟨n + 1, by rw [hn, Nat.add_mul]; omega⟩
    · simp only [Option.some.injEq, Prod.mk.injEq] at h
      exact ⟨0, by omega⟩

/-- The four-sample block at `x`, when eight samples can be read there in every row. -/
theorem vBlock4NeonF_ok (o : VecOps A) (h : VPre src stride w b total) {x : ℕ} {dst : List A}
    (hl : dst.length = total) (hx : x + 4 ≤ total)
    (h8 : ∀ k, k < b.size → stride * (b.start + k) + x + 8 ≤ src.length) :
    ∃ r, vBlock4NeonF o b src stride w x dst = some r ∧ r.length = total ∧
      (∀ p, x ≤ p → p < x + 4 → r[p]? = some (vAccF o true src stride b w b.size p)) ∧
      (∀ p, (p < x ∨ x + 4 ≤ p) → r[p]? = dst[p]?) := by
  have e : ∀ n, n ≤ b.size → forRange 0 n (vStep4NeonF o b src stride w x) (set1v o.zero) =
      some ((List.range 4).map fun i => vAccF o true src stride b w n (x + i)) := by
    intro n
    induction n with
    | zero => intro _; rw [set1v_eq]; rfl
    | succ n ih =>
      intro hn
      have g2 := ih (by omega)
      have r8 := h8 n (by omega)
      unfold forRange at g2 ⊢
      rw [Nat.sub_zero, List.range'_1_concat, List.foldlM_append]
      rw [Nat.sub_zero] at g2
      rw [g2]
      simp only [Option.bind_eq_bind, Option.bind_some, List.foldlM_cons, List.foldlM_nil, Nat.zero_add]
      unfold vStep4NeonF
      rw [h.getQ (by omega), slice?_eq_some (by omega) r8, Nat.add_sub_cancel_left]
      simp only [Option.bind_eq_bind, Option.bind_some]
      rw [slice_eq_map_range o.zero r8, ← List.map_take, List.take_range,
        show min 4 8 = 4 from rfl, set1v_eq, preferV_map]
      simp only [Option.bind_some, vAccF, chain, Nat.add_assoc]
      rfl
  unfold vBlock4NeonF
  rw [e b.size le_rfl]
  simp only [Option.bind_eq_bind, Option.bind_some]
  exact write_block (val := vAccF o true src stride b w b.size) dst hl hx

/-- `neonColumnF` reads eight samples at the last multiple of eight if five to seven are left; they must exist. -/
theorem neonColumnF_ok (o : VecOps A) {dst : List A} (h : VPre src stride w b dst.length)
    (h8 : dst.length % 8 ≤ 4 ∨ ∀ k, k < b.size → stride * (b.start + k) + (dst.length + 7) / 8 * 8 ≤ src.length) :
    ∃ r, neonColumnF o b src dst stride w = some r ∧ r.length = dst.length ∧
      ∀ p, p < dst.length → r[p]? = some (vAccF o true src stride b w b.size p) := by
  unfold neonColumnF
  dsimp only
  obtain ⟨c1, r1, e1, l1, _, m1, _, v1⟩ := whileBlocks_spec (margin := 48) (step := 48) (by norm_num) (by norm_num)
    (vBlockF_ok o true h 12) dst.length 0 dst rfl (Nat.zero_le _) (by omega) (fun p hp => absurd hp (by omega))
  obtain ⟨c2, r2, e2, l2, _, m2, _, v2⟩ := whileBlocks_spec (margin := 32) (step := 32) (by norm_num) (by norm_num)
    (vBlockF_ok o true h 8) dst.length c1 r1 l1 m1 (by omega) v1
  obtain ⟨c3, r3, e3, l3, _, m3, _, v3⟩ := whileBlocks_spec (margin := 16) (step := 16) (by norm_num) (by norm_num)
    (vBlockF_ok o true h 4) dst.length c2 r2 l2 m2 (by omega) v2
  obtain ⟨c4, r4, e4, l4, _, m4, u4, v4⟩ := whileBlocks_spec (margin := 8) (step := 8) (by norm_num) (by norm_num)
    (vBlockF_ok o true h 2) dst.length c3 r3 l3 m3 (by omega) v3
  obtain ⟨n1, d1⟩ := whileBlocks_steps _ _ _ e1
  obtain ⟨n2, d2⟩ := whileBlocks_steps _ _ _ e2
  obtain ⟨n3, d3⟩ := whileBlocks_steps _ _ _ e3
  obtain ⟨n4, d4⟩ := whileBlocks_steps _ _ _ e4
  have key : ∃ c r, whileBlocks 4 4 dst.length (vBlock4NeonF o b src stride w) dst.length c4 r4 = some (c, r) ∧
      r.length = dst.length ∧ c ≤ dst.length ∧ ∀ p, p < c → r[p]? = some (vAccF o true src stride b w b.size p) := by
    by_cases hc : c4 + 4 < dst.length
    · obtain ⟨f, hf⟩ : ∃ f, dst.length = f + 1 + 1 := ⟨dst.length - 2, by omega⟩
      obtain ⟨r, b1, b2, b3, b4⟩ := vBlock4NeonF_ok o h (x := c4) l4 (by omega) (by
        intro k hk
        have := h.row hk
        rcases h8 with h8 | h8
        · omega
        · have := h8 k hk; omega)
      refine ⟨c4 + 4, r, ?_, b2, by omega, ?_⟩
      · rw [show whileBlocks 4 4 dst.length (vBlock4NeonF o b src stride w) dst.length c4 r4 =
          whileBlocks 4 4 dst.length (vBlock4NeonF o b src stride w) (f + 1 + 1) c4 r4 by rw [← hf]]
        unfold whileBlocks
        rw [if_pos hc, b1]
        simp only [Option.bind_eq_bind, Option.bind_some]
        unfold whileBlocks
        rw [if_neg (by omega)]
      · intro p hp
        by_cases h4 : p < c4
        · rw [b4 p (Or.inl h4)]; exact v4 p h4
        · exact b3 p (by omega) hp
    · refine ⟨c4, r4, ?_, l4, m4, v4⟩
      obtain hf | ⟨f, hf⟩ : dst.length = 0 ∨ ∃ f, dst.length = f + 1 := by
        rcases Nat.eq_zero_or_pos dst.length with h | h
        · exact Or.inl h
        · exact Or.inr ⟨dst.length - 1, by omega⟩
      · rw [hf]; rfl
      · rw [show whileBlocks 4 4 dst.length (vBlock4NeonF o b src stride w) dst.length c4 r4 =
          whileBlocks 4 4 dst.length (vBlock4NeonF o b src stride w) (f + 1) c4 r4 by rw [← hf]]
        unfold whileBlocks
        rw [if_neg hc]
  obtain ⟨c5, r5, e5, l5, m5, v5⟩ := key
  obtain ⟨c6, r6, e6, l6, _, _, m6, v6⟩ := whileBlocks_spec (margin := 0) (step := 1) (by norm_num) (by norm_num)
    (vTailF_ok o true true h) dst.length c5 r5 l5 m5 (by omega) v5
  rw [e1]
  simp only [Option.bind_eq_bind, Option.bind_some]
  rw [e2]
  simp only [Option.bind_some]
  rw [e3]
  simp only [Option.bind_some]
  rw [e4]
  simp only [Option.bind_some]
  rw [e5]
  simp only [Option.bind_some]
  rw [e6]
  exact ⟨r6, rfl, l6, fun p hp => v6 p (by omega)⟩

end vertical

/-! ### horizontal -/

section horizontal

variable {src : List A} {offs : List ℕ} {w : List ℚ} {b : Bounds}

theorem planeNeonF_eq (o : VecOps A) (n : ℕ) : planeNeonF o n = planeSseF o true n := rfl

theorem rgbNeonF_ok (o : VecOps A) (srcWidth : ℕ) (h : HPre 3 src offs w b) :
    rgbNeonF o srcWidth src offs w b = some (offs.map fun a => (List.range 3).map fun c =>
      seqH o true 3 w b (fun i => src.getD (a + i) o.zero) c) := by
  unfold rgbNeonF
  dsimp only
  obtain ⟨n1, s1, e1, i1, q1, _, _⟩ := rowsLoop_inv (size := min b.size (srcWidth - (b.start + 1)))
    (P := fun a j s => SeqInv o true 3 3 src w b a j s) (margin := 4) (step := 4)
    (by norm_num) (by norm_num) (fun m hm a ha s hs => rgbPx4_inv o true h ha (by omega) s hs) (Nat.zero_le _)
    (seq_init o true 3 3)
  obtain ⟨n2, s2, e2, i2, q2, _, _⟩ := rowsLoop_inv (size := b.size) (P := fun a j s => SeqInv o true 3 3 src w b a j s) (margin := 2) (step := 2)
    (by norm_num) (by norm_num) (fun m hm a ha s hs => rgbPx2_inv o true h ha (by omega) s hs) (by omega) i1
  obtain ⟨n3, s3, e3, i3, q3, q4, _⟩ := rowsLoop_inv (size := b.size) (P := fun a j s => SeqInv o true 3 3 src w b a j s) (margin := 0) (step := 1)
    (by norm_num) (by norm_num) (fun m hm a ha s hs => rgbPx1_inv o true h ha (by omega) s hs) q2 i2
  rw [e1]
  simp only [Option.bind_eq_bind, Option.bind_some]
  rw [e2]
  simp only [Option.bind_some]
  rw [e3]
  simp only [Option.bind_some]
  rw [show 0 + n1 * 4 + n2 * 2 + n3 * 1 = b.size by omega] at i3
  congr 1
  exact forall₂_eq i3 fun a _ s hs => Lanes.take hs (by norm_num)

theorem rgbaPx8F_inv (o : VecOps A) (h : HPre 4 src offs w b) {a : ℕ} (ha : a ∈ offs) {jx : ℕ}
    (hj : jx + 8 ≤ b.size) (s : List A) (hs : SeqInv o true 4 4 src w b a jx s) :
    ∃ s', rgbaPx8F o src w b jx a s = some s' ∧ SeqInv o true 4 4 src w b a (jx + 8) s' := by
  obtain ⟨t, t1, t2⟩ := rgbaPx4F_inv o true h ha (by omega) s hs
  obtain ⟨u, u1, u2⟩ := rgbaPx4F_inv o true h ha (by omega) t t2
  exact ⟨u, by unfold rgbaPx8F; rw [t1]; exact u1, u2⟩

theorem rgbaNeonF_ok (o : VecOps A) (eight : Bool) (h : HPre 4 src offs w b) :
    rgbaNeonF o eight src offs w b = some (offs.map fun a => (List.range 4).map fun c =>
      seqH o true 4 w b (fun i => src.getD (a + i) o.zero) c) := by
  unfold rgbaNeonF
  dsimp only
  have key : ∃ n0 s0, (if eight then rowsLoop 8 8 b.size offs (rgbaPx8F o src w b) 0 (offs.map fun _ => set1v o.zero)
      else some (0, offs.map fun _ => set1v o.zero)) = some (n0, s0) ∧ n0 ≤ b.size ∧
      List.Forall₂ (fun a s => SeqInv o true 4 4 src w b a n0 s) offs s0 := by
    cases eight
    · exact ⟨0, _, rfl, Nat.zero_le _, seq_init o true 4 4⟩
    · obtain ⟨n1, s1, e1, i1, q1, _, _⟩ := rowsLoop_inv (size := b.size) (P := fun a j s => SeqInv o true 4 4 src w b a j s) (margin := 8) (step := 8)
        (by norm_num) (by norm_num) (fun m hm a ha s hs => rgbaPx8F_inv o h ha (by omega) s hs) (Nat.zero_le _)
        (seq_init o true 4 4)
      exact ⟨_, s1, by rw [if_pos rfl, e1], q1, i1⟩
  obtain ⟨n0, s0, e0, q0, i0⟩ := key
  obtain ⟨n1, s1, e1, i1, q1, _, _⟩ := rowsLoop_inv (size := b.size) (P := fun a j s => SeqInv o true 4 4 src w b a j s) (margin := 4) (step := 4)
    (by norm_num) (by norm_num) (fun m hm a ha s hs => rgbaPx4F_inv o true h ha (by omega) s hs) q0 i0
  obtain ⟨n2, s2, e2, i2, q2, _, _⟩ := rowsLoop_inv (size := b.size) (P := fun a j s => SeqInv o true 4 4 src w b a j s) (margin := 2) (step := 2)
    (by norm_num) (by norm_num) (fun m hm a ha s hs => rgbaPx2F_inv o true h ha (by omega) s hs) q1 i1
  obtain ⟨n3, s3, e3, i3, q3, q4, _⟩ := rowsLoop_inv (size := b.size) (P := fun a j s => SeqInv o true 4 4 src w b a j s) (margin := 0) (step := 1)
    (by norm_num) (by norm_num) (fun m hm a ha s hs => rgbaPx1F_inv o true h ha (by omega) s hs) q2 i2
  rw [e0]
  simp only [Option.bind_eq_bind, Option.bind_some]
  rw [e1]
  simp only [Option.bind_some]
  rw [e2]
  simp only [Option.bind_some]
  rw [e3]
  simp only [Option.bind_some]
  rw [show n0 + n1 * 4 + n2 * 2 + n3 * 1 = b.size by omega] at i3
  congr 1
  have := forall₂_eq (g := fun s => s) i3 fun a _ s hs => Lanes.eq4 hs
  rw [List.map_id'] at this
  exact this

end horizontal

/-! ### the passes -/

/-- Vertical pass: destination row `y`, position `q`. -/
def vvNeonF (o : VecOps A) (fw : FilterWeights ℚ) (y q : ℕ) (P : ℕ → ℕ → A) : A :=
  chain (o.mulAdd true) o.zero (fun k => P ((fw.bound y).start + k) q) (fun k => o.weight (fw.weight y k))
    (fw.bound y).size

/-- Horizontal pass: row `y` of `H`, pixel `x`, channel `c`. -/
def hvNeonF (o : VecOps A) (N : ℕ) (fw : FilterWeights ℚ) (H y x c : ℕ) (r : ℕ → A) : A :=
  let p := fun k => r (((fw.bound x).start + k) * N + c)
  let w := fun k => o.weight (fw.weight x k)
  let n := (fw.bound x).size
  let single := ¬ y < H / 4 * 4
  if N = 1 then quadSum o.add (o.mulAdd true) o.zero (decide single) p w n
  else if N = 3 then chain (o.mulAdd true) o.zero p w n
  else if N = 4 then chain (o.mulAdd true) o.zero p w n
  else floatVal (o.scalar true) n p w

theorem verticalNeonF_ok (o : VecOps A) {N : ℕ} (hN : 1 ≤ N) (src dst : Image A)
    (fw : FilterWeights ℚ) (hs : src.validate N = .ok ()) (hd : dst.validate N = .ok ())
    (hw : src.width = dst.width) (hdw : 0 < dst.width) (hT : ValidTable fw src.height dst.height)
    (h8 : (src.width * N) % 8 ≤ 4 ∨ (src.width * N + 7) / 8 * 8 ≤ src.strideOf N) :
    ∃ out, (formatF32Neon o N).vertical src dst fw = some out ∧ SameShape out dst ∧
      PaddingKept N dst out ∧
      ∀ y x c, y < dst.height → x < dst.width → c < N →
        sample out.buffer (dst.strideOf N) N y x c = some (vvNeonF o fw y (x * N + c)
          (rowPos o.zero src.buffer (src.strideOf N))) := by
  simp only [formatF32Neon]
  obtain ⟨s1, s2, _⟩ := validate_ok hs
  obtain ⟨r, e1, e2, e3, e4⟩ := verticalG_raw (column := neonColumnF o) (fw := fw)
      (V := fun y q => vvNeonF o fw y q (rowPos o.zero src.buffer (src.strideOf N)))
      (fun y dd hy hl hp => by
        obtain ⟨r, r1, r2, r3⟩ := neonColumnF_ok o (dst := dd) hp (by
          rw [hl, ← hw]
          rcases h8 with h8 | h8
          · exact Or.inl h8
          · right
            intro k hk
            have hin := hT.inside y hy
            rw [s1]
            have : ((fw.bound y).start + k + 1) * src.strideOf N ≤ src.height * src.strideOf N :=
              Nat.mul_le_mul_right _ (by omega)
            rw [Nat.add_mul _ 1, Nat.one_mul] at this
            rw [Nat.mul_comm (src.strideOf N)]
            omega)
        refine ⟨r, r1, r2, fun p hp' => ?_⟩
        rw [r3 p hp']
        unfold vvNeonF vAccF
        congr 1
        apply chain_congr
        · intro k _
          unfold rowPos
          rw [Nat.mul_comm]
        · intro k hk
          unfold FilterWeights.weight
          simp [List.getD_eq_getElem?_getD, List.getElem?_drop]) hN hs hd hw hdw hT
  exact ⟨_, e1, (raw_shape hN hd e2 e4).1, (raw_shape hN hd e2 e4).2, fun y x c hy hx hc => e3 y x c hy hx hc⟩

theorem horizontalNeonF_ok (o : VecOps A) {N : ℕ} (hN : 1 ≤ N ∧ N ≤ 4) (src dst : Image A)
    (fw : FilterWeights ℚ) (hs : src.validate N = .ok ()) (hd : dst.validate N = .ok ())
    (hh : src.height = dst.height) (hsw : 0 < src.width) (hdw : 0 < dst.width)
    (hT : ValidTable fw src.width dst.width) :
    ∃ out, (formatF32Neon o N).horizontal src dst fw = some out ∧ SameShape out dst ∧
      PaddingKept N dst out ∧
      ∀ y x c, y < dst.height → x < dst.width → c < N →
        sample out.buffer (dst.strideOf N) N y x c = some (hvNeonF o N fw dst.height y x c
          (rowPos o.zero src.buffer (src.strideOf N) y)) := by
  obtain ⟨s1, s2, _⟩ := validate_ok hs
  obtain ⟨d1, d2, _⟩ := validate_ok hd
  have kw := fun x (hx : x < dst.width) k (hk : k < (fw.bound x).size) => kernel_wF o hT hx hk
  have pos := fun x (hx : x < dst.width) => hT.size_pos x hx
  simp only [formatF32Neon]
  by_cases c1 : N = 1
  · subst c1
    have e1 : (fun s ss dd ds => rows4F32Neon o 1 src.width s ss dd ds fw) =
        fun s ss dd ds => simdRows4 1 (planeSseF o true 16 s) ss dd ds fw := by
      funext s ss dd ds; unfold rows4F32Neon; rw [if_pos rfl, planeNeonF_eq]
    have e2 : (fun s dd => rowF32Neon o 1 src.width s dd fw) = fun s dd => simdRow 1 (planeSseF o true 8 s) dd fw := by
      funext s dd; unfold rowF32Neon; rw [if_pos rfl, planeNeonF_eq]
    rw [e1, e2]
    have k1 := simdRow_ok (d0 := o.zero) (h1 := planeSseF o true 8) (V1 := fun w b f _ => planeH o true true w b f)
      (fun s offs w b h => planeSseF_ok o true true h) (fun w b f g c hb hc h => planeH_local o true true w b f g hb h) hT s2 d2
    have k4 := simdRow_ok (d0 := o.zero) (h1 := planeSseF o true 16) (V1 := fun w b f _ => planeH o true false w b f)
      (fun s offs w b h => planeSseF_ok o true false h) (fun w b f g c hb hc h => planeH_local o true false w b f g hb h) hT s2 d2
    obtain ⟨out, g1, g2, g3, g4⟩ := horizontalX86_of (by norm_num) hs hd hh hsw hdw k1
      (simdRows4_ok (h4 := planeSseF o true 16) (V4 := fun w b f _ => planeH o true false w b f)
        (fun s offs w b h => planeSseF_ok o true false h) hT s2 d2) k4.loc
    refine ⟨out, g1, g2, g3, fun y x c hy hx hc' => ?_⟩
    rw [g4 y x c hy hx hc']
    obtain rfl : c = 0 := by omega
    simp only [hvNeonF]
    congr 1
    by_cases hy4 : y < dst.height / 4 * 4
    · rw [if_pos hy4]
      simp only [hy4, not_true, decide_false, if_true]
      exact quadSum_congr (pos x hx) (fun _ _ => rfl) (fun k hk => kw x hx k hk)
    · rw [if_neg hy4]
      simp only [hy4, not_false_eq_true, decide_true, if_true]
      exact quadSum_congr (pos x hx) (fun _ _ => rfl) (fun k hk => kw x hx k hk)
  by_cases c3 : N = 3
  · subst c3
    have e1 : (fun s ss dd ds => rows4F32Neon o 3 src.width s ss dd ds fw) =
        fun s ss dd ds => simdRows4 3 (rgbNeonF o src.width s) ss dd ds fw := by
      funext s ss dd ds; unfold rows4F32Neon; rw [if_neg c1, if_pos rfl]
    have e2 : (fun s dd => rowF32Neon o 3 src.width s dd fw) = fun s dd => simdRow 3 (rgbNeonF o src.width s) dd fw := by
      funext s dd; unfold rowF32Neon; rw [if_neg c1, if_pos rfl]
    rw [e1, e2]
    have k1 := simdRow_ok (d0 := o.zero) (h1 := rgbNeonF o src.width) (V1 := seqH o true 3)
      (fun s offs w b h => rgbNeonF_ok o src.width h) (fun w b f g c hb hc h => seqH_local o true 3 w b f g c hc h) hT s2 d2
    obtain ⟨out, g1, g2, g3, g4⟩ := horizontalX86_of (by norm_num) hs hd hh hsw hdw k1
      (simdRows4_ok (h4 := rgbNeonF o src.width) (V4 := seqH o true 3) (fun s offs w b h => rgbNeonF_ok o src.width h) hT s2 d2) k1.loc
    refine ⟨out, g1, g2, g3, fun y x c hy hx hc' => ?_⟩
    rw [g4 y x c hy hx hc', ite_self]
    simp only [hvNeonF]
    rw [if_neg c1, if_pos trivial]
    congr 1
    exact chain_congr (fun _ _ => rfl) (fun k hk => kw x hx k hk)
  by_cases c4 : N = 4
  · subst c4
    have e1 : (fun s ss dd ds => rows4F32Neon o 4 src.width s ss dd ds fw) =
        fun s ss dd ds => simdRows4 4 (rgbaNeonF o true s) ss dd ds fw := by
      funext s ss dd ds; unfold rows4F32Neon; rw [if_neg c1, if_neg c3, if_pos rfl]
    have e2 : (fun s dd => rowF32Neon o 4 src.width s dd fw) = fun s dd => simdRow 4 (rgbaNeonF o false s) dd fw := by
      funext s dd; unfold rowF32Neon; rw [if_neg c1, if_neg c3, if_pos rfl]
    rw [e1, e2]
    have k1 := simdRow_ok (d0 := o.zero) (h1 := rgbaNeonF o false) (V1 := seqH o true 4)
      (fun s offs w b h => rgbaNeonF_ok o false h) (fun w b f g c hb hc h => seqH_local o true 4 w b f g c hc h) hT s2 d2
    obtain ⟨out, g1, g2, g3, g4⟩ := horizontalX86_of (by norm_num) hs hd hh hsw hdw k1
      (simdRows4_ok (h4 := rgbaNeonF o true) (V4 := seqH o true 4) (fun s offs w b h => rgbaNeonF_ok o true h) hT s2 d2) k1.loc
    refine ⟨out, g1, g2, g3, fun y x c hy hx hc' => ?_⟩
    rw [g4 y x c hy hx hc', ite_self]
    simp only [hvNeonF]
    rw [if_neg c1, if_neg c3, if_pos trivial]
    congr 1
    exact chain_congr (fun _ _ => rfl) (fun k hk => kw x hx k hk)
  · have e1 : (fun s ss dd ds => rows4F32Neon o N src.width s ss dd ds fw) =
        fun s ss dd ds => rows4Float (o.scalar true) N s ss dd ds fw := by
      funext s ss dd ds; unfold rows4F32Neon; rw [if_neg c1, if_neg c3, if_neg c4]
    have e2 : (fun s dd => rowF32Neon o N src.width s dd fw) = fun s dd => rowFloat (o.scalar true) N s dd fw := by
      funext s dd; unfold rowF32Neon; rw [if_neg c1, if_neg c3, if_neg c4]
    rw [e1, e2]
    obtain ⟨r, g1, g2, g3, g4⟩ := horizontalFloat_raw (o.scalar true) o.zero hN hs hd hh hsw hdw hT
    refine ⟨_, g1, (raw_shape hN.1 hd g2 g4).1, (raw_shape hN.1 hd g2 g4).2, fun y x c hy hx hc => ?_⟩
    refine (g3 y x c hy hx hc).trans ?_
    simp only [hvNeonF, if_neg c1, if_neg c3, if_neg c4, rowPos_pxD]
    rfl

end PicScale
