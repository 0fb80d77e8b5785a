import Verif.Lemmas.F16Fun
import Verif.Lemmas.F16Enc

/-! Values of f16 passes in binary32 and half arithmetic. -/

namespace PicScale

open Spec F32 Finset

variable {H A : Type}

theorem sum32_left (f : Bool) (p w : ℕ → ℚ) (n : ℕ) : (HalfSum.left f).sum32 p w n = leftF f p w n := by
  have e : (fun acc a b : ℚ => if f = true then rnd (a * b + acc) else rnd (rnd (a * b) + acc)) = mlaf rnd f := by
    funext acc a b
    unfold mlaf
    cases f <;> simp [add_comm]
  unfold leftF
  rw [← e]
  rfl

theorem sum32_pairs (f : Bool) (p w : ℕ → ℚ) (n : ℕ) :
    (HalfSum.pairs f).sum32 p w n = pairSum ratOps.add (ratOps.mulAdd f) ratOps.zero p w n := rfl

theorem vvF16_sum (cpu : HalfCpu) (o : HalfOps H ℚ) (ho : o.arith = ratOps) (fw : FilterWeights ℚ) (y q : ℕ)
    (P : ℕ → ℕ → H) (hn : 1 ≤ (fw.bound y).size) :
    vvF16 cpu o fw y q P = o.narrowX (vIeee cpu) ((vOrder cpu).sum32
      (fun k => o.widenX (vIeee cpu) (P ((fw.bound y).start + k) q)) (fun k => fw.weight y k) (fw.bound y).size) := by
  rw [vvF16_left cpu o ho fw y q P hn]
  unfold vOrder vIeee
  rw [sum32_left]
  obtain ⟨s, a, f, m, u⟩ := cpu
  cases a <;> cases f <;> cases s <;> rfl

theorem hvF16_sum (cpu : HalfCpu) (o : HalfOps H ℚ) (ho : o.arith = ratOps) {N : ℕ} (hN : 1 ≤ N ∧ N ≤ 4) (fw : FilterWeights ℚ)
    (x c : ℕ) (r : ℕ → H) (hn : 1 ≤ (fw.bound x).size) :
    hvF16 cpu o N fw x c r = o.narrowX (hIeee cpu N) ((hOrder cpu N).sum32
      (fun k => o.widenX (hIeee cpu N) (r (((fw.bound x).start + k) * N + c))) (fun k => fw.weight x k) (fw.bound x).size) := by
  unfold hvF16
  rw [ho]
  dsimp only
  have port : ∀ i : Bool, i = true → o.narrow (floatVal (ratOps.scalar cpu.fused) (fw.bound x).size
      (fun k => o.widen (r (((fw.bound x).start + k) * N + c))) (fun k => ratOps.weight (fw.weight x k))) =
      o.narrowX i ((HalfSum.left cpu.fused).sum32
        (fun k => o.widenX i (r (((fw.bound x).start + k) * N + c))) (fun k => fw.weight x k) (fw.bound x).size) := by
    intro i hi
    subst hi
    rw [sum32_left]
    exact congrArg o.narrow (scalar_leftF _ hn)
  have seq : ∀ f : Bool, o.narrowX cpu.f16c (chain (ratOps.mulAdd f) ratOps.zero
      (fun k => o.widenX cpu.f16c (r (((fw.bound x).start + k) * N + c))) (fun k => ratOps.weight (fw.weight x k)) (fw.bound x).size) =
      o.narrowX cpu.f16c ((HalfSum.left f).sum32
        (fun k => o.widenX cpu.f16c (r (((fw.bound x).start + k) * N + c))) (fun k => fw.weight x k) (fw.bound x).size) := by
    intro f
    rw [sum32_left]
    exact congrArg (o.narrowX cpu.f16c) (chain_leftF _ hn)
  unfold hOrder
  by_cases h1 : N = 4 ∧ cpu.avx2 = true ∧ cpu.f16c = true
  · rw [if_pos h1, if_pos h1, sum32_pairs]
    have : hIeee cpu N = true := by unfold hIeee; rw [h1.2.2]; rfl
    rw [this]
    rfl
  rw [if_neg h1, if_neg h1]
  by_cases h2 : N = 4 ∧ cpu.sse41 = true
  · rw [if_pos h2, if_pos h2, seq]
    have : hIeee cpu N = cpu.f16c := by unfold hIeee; rw [h2.2, h2.1]; simp
    rw [this]
  rw [if_neg h2, if_neg h2]
  by_cases h3 : N = 3 ∧ cpu.sse41 = true
  · rw [if_pos h3, if_pos h3, seq]
    have : hIeee cpu N = cpu.f16c := by unfold hIeee; rw [h3.2, h3.1]; simp
    rw [this]
  rw [if_neg h3, if_neg h3]
  refine port _ ?_
  unfold hIeee
  rcases Nat.lt_or_ge 2 N with h | h
  · have hs : cpu.sse41 = false := by
      rw [← Bool.not_eq_true]
      intro hs
      rcases Nat.lt_or_ge 3 N with h' | h'
      · exact h2 ⟨by omega, hs⟩
      · exact h3 ⟨by omega, hs⟩
    rw [hs]
    simp
  · simp [h]

/-! ### the value of a sum -/

theorem sum32_rep (s : HalfSum) (p w : ℕ → ℚ) (n : ℕ) : rnd (s.sum32 p w n) = s.sum32 p w n := by
  cases s with
  | left f => rw [sum32_left]; exact leftF_rep f
  | pairs f => exact rnd_rnd _

theorem sum32_near (s : HalfSum) (p w : ℕ → ℚ) {n : ℕ} (hn : 1 ≤ n) :
    Near (n + 3) (8 * n + 3) (s.sum32 p w n) (∑ k ∈ range n, p k * w k) (∑ k ∈ range n, |p k| * |w k|) := by
  cases s with
  | left f =>
    rw [sum32_left, ← chain_leftF _ hn, ratOps_mulAdd]
    exact chain_near rnd_near _ _ _ _
  | pairs f => exact pairSum_near rnd_near _ _ _ hn

theorem mla_nonneg (f : Bool) {acc a b : ℚ} (h : 0 ≤ acc) (ha : 0 ≤ a) (hb : 0 ≤ b) :
    0 ≤ (if f then F32.rnd (a * b + acc) else F32.rnd (F32.rnd (a * b) + acc)) := by
  have hab : 0 ≤ a * b := mul_nonneg ha hb
  split_ifs
  · exact rnd_nonneg (by linarith)
  · exact rnd_nonneg (by have := rnd_nonneg hab; linarith)

theorem chain_nonneg (f : Bool) {acc : ℚ} {p w : ℕ → ℚ} (h : 0 ≤ acc) :
    ∀ n, (∀ k, k < n → 0 ≤ p k ∧ 0 ≤ w k) →
      0 ≤ chain (fun acc a b => if f then F32.rnd (a * b + acc) else F32.rnd (F32.rnd (a * b) + acc)) acc p w n := by
  intro n
  induction n with
  | zero => intro _; exact h
  | succ n ih =>
    intro hp
    rw [chain]
    exact mla_nonneg f (ih fun k hk => hp k (by omega)) (hp n (by omega)).1 (hp n (by omega)).2

/-- Non-negative products have a non-negative sum, rounded or not. -/
theorem sum32_nonneg (s : HalfSum) {p w : ℕ → ℚ} {n : ℕ} (hn : 1 ≤ n) (hp : ∀ k, k < n → 0 ≤ p k ∧ 0 ≤ w k) :
    0 ≤ s.sum32 p w n := by
  cases s with
  | left f =>
    show 0 ≤ leftSum _ _ p w n
    unfold leftSum
    apply chain_nonneg
    · exact rnd_nonneg (mul_nonneg (hp 0 (by omega)).1 (hp 0 (by omega)).2)
    · intro k hk; exact hp (k + 1) (by omega)
  | pairs f =>
    have key : ∀ L : List Tap, (∀ t ∈ L, ∀ k, t.1 = some k ∨ t.2 = some k → k < n) →
        0 ≤ tapSum (fun acc a b => if f then F32.rnd (a * b + acc) else F32.rnd (F32.rnd (a * b) + acc)) 0 p w L := by
      intro L
      induction L using List.reverseRecOn with
      | nil => intro _; exact le_rfl
      | append_singleton L t ih =>
        intro hL
        unfold tapSum at ih ⊢
        rw [List.foldl_append, List.foldl_cons, List.foldl_nil]
        apply mla_nonneg f (ih fun t' ht' => hL t' (by simp [ht']))
        · rcases h1 : t.1 with _ | k
          · exact le_rfl
          · exact (hp k (hL t (by simp) k (Or.inl h1))).1
        · rcases h1 : t.2 with _ | k
          · exact le_rfl
          · exact (hp k (hL t (by simp) k (Or.inr h1))).2
    have hlast : ∀ k, k ∈ lastTaps n → k < n := by
      intro k hk
      unfold lastTaps at hk
      rw [List.mem_range'_1] at hk
      omega
    show 0 ≤ rnd (tapSum _ 0 p w (lowTaps n) + tapSum _ 0 p w (highTaps n))
    apply rnd_nonneg
    apply add_nonneg
    · apply key
      intro t ht k hk
      unfold lowTaps at ht
      rw [List.mem_append, List.mem_map, List.mem_map] at ht
      rcases ht with ⟨i, hi, rfl⟩ | ⟨i, hi, rfl⟩
      · rw [List.mem_range] at hi
        simp [use] at hk
        omega
      · have := hlast i hi
        simp [use] at hk
        omega
    · apply key
      intro t ht k hk
      unfold highTaps at ht
      rw [List.mem_append, List.mem_map, List.mem_map] at ht
      rcases ht with ⟨i, hi, rfl⟩ | ⟨i, hi, rfl⟩
      · rw [List.mem_range] at hi
        simp [use] at hk
        omega
      · have := hlast i hi
        simp at hk
        omega

/-! ### narrowing -/

namespace F16

theorem widenX_finite (b : Bool) {h : ℕ} (hf : FiniteHalf h) : halfBits.widenX b h = dec h := by
  cases b
  · exact dec32_widenFb hf.1 hf.2
  · rfl

theorem narrowX_spec (b : Bool) {v : ℚ} (hr : rnd v = v) (hlt : |v| < 65520) (hb : b = true ∨ 0 ≤ v) :
    FiniteHalf (halfBits.narrowX b v) ∧ |dec (halfBits.narrowX b v) - v| ≤ halfErr |v| ∧
      (0 ≤ v → 0 ≤ dec (halfBits.narrowX b v)) := by
  obtain ⟨a1, a2, a3⟩ := enc_near hlt
  unfold halfErr
  cases b with
  | true =>
    refine ⟨⟨a2, a1⟩, a3, fun hv => ?_⟩
    obtain ⟨m, m1, _, m3, _⟩ := enc_cases hlt
    show 0 ≤ dec (enc v)
    rcases m3 with ⟨e, _⟩ | ⟨_, h⟩
    · rw [e]; exact dec_nonneg (by omega)
    · linarith
  | false =>
    have hv : 0 ≤ v := by rcases hb with h | h; · exact absurd h (by decide)
                          · exact h
    have hlt' : v < 65520 := by rwa [abs_of_nonneg hv] at hlt
    obtain ⟨b1, b2⟩ := narrowFb_enc32 hv hr hlt'
    have e : halfBits.narrowX false v = narrowFb (enc32 v) := rfl
    rw [e]
    refine ⟨⟨by omega, by omega⟩, ?_, fun _ => dec_nonneg (by omega)⟩
    obtain ⟨m, m1, m2, m3, _⟩ := enc_cases hlt
    rcases m3 with ⟨em, _⟩ | ⟨_, h⟩
    · have h1 := nearest_of_between (by omega) b2 m (by omega)
      rw [em] at a3
      exact le_trans h1 a3
    · linarith

end F16

end PicScale
