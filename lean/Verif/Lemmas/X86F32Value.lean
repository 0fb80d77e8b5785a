import Verif.Lemmas.X86F32Pass
import Verif.Lemmas.FloatErr
import Verif.Props.Floating

/-! The values of the f32 passes on x86 with binary32 arithmetic. -/

namespace PicScale

open Spec Finset

variable {A : Type}

/-! ### images -/

theorem image_ext {N : ℕ} {into a b : Image A} (ha : SameShape a into) (hb : SameShape b into)
    (pa : PaddingKept N into a) (pb : PaddingKept N into b)
    (h : ∀ y x c, y < into.height → x < into.width → c < N →
      sample a.buffer (into.strideOf N) N y x c = sample b.buffer (into.strideOf N) N y x c) : a = b := by
  obtain ⟨a1, a2, a3, a4, a5, _⟩ := ha
  obtain ⟨b1, b2, b3, b4, b5, _⟩ := hb
  have hb : a.buffer = b.buffer := by
    apply List.ext_getElem?
    intro p
    by_cases hp : IsPixelPos (into.strideOf N) N into.width into.height p
    · obtain ⟨y, x, c, hy, hx, hc, rfl⟩ := hp
      exact h y x c hy hx hc
    · rw [pa p hp, pb p hp]
  cases a; cases b
  simp_all

/-! ### left-to-right sums -/

theorem chain_leftSum {mul : A → A → A} {mla : A → A → A → A} {zero : A} (law : ∀ a b, mla zero a b = mul a b)
    {p w : ℕ → A} {n : ℕ} (hn : 1 ≤ n) : chain mla zero p w n = leftSum mul mla p w n := by
  unfold leftSum
  obtain ⟨m, rfl⟩ : ∃ m, n = m + 1 := ⟨n - 1, by omega⟩
  rw [Nat.add_sub_cancel]
  clear hn
  induction m with
  | zero => simp [chain, law]
  | succ m ih => rw [chain, ih, chain]

theorem ratOps_mulAdd (f : Bool) : ratOps.mulAdd f = mlaOf F32.rnd f := rfl

theorem ratOps_mlaf (f : Bool) : ratOps.mulAdd f = mlaf F32.rnd f := by
  funext acc a b
  cases f
  · simp only [VecOps.mulAdd, ratOps, mlaf, Bool.false_eq_true, if_false]
    rw [add_comm]
  · simp only [VecOps.mulAdd, ratOps, mlaf, if_true]
    rw [add_comm]

theorem ratOps_scalar (f : Bool) : ratOps.scalar f = f32Ops F32.rnd f := by
  unfold VecOps.scalar f32Ops
  simp only [ratOps, FloatOps.mk.injEq, true_and, and_true]
  funext acc a b
  cases f
  · simp [mlaf]
  · simp only [mlaf, if_true]
    rw [add_comm]

/-- Without vector instructions the model is the portable format. -/
theorem formatF32X86_none (fma f : Bool) (N : ℕ) :
    formatF32X86 ⟨false, false⟩ fma f ratOps N = formatFloat (f32Ops F32.rnd f) 0 N := by
  rw [← ratOps_scalar]
  unfold formatF32X86 formatFloat columnF32X86 rows4F32X86 rowF32X86
  simp only [Bool.false_eq_true, if_false, and_false]
  rfl

/-- The left-to-right binary32 sum, with (`f`) or without fused multiply-add. -/
def leftF (f : Bool) (p w : ℕ → ℚ) (n : ℕ) : ℚ := leftSum (fun a b => F32.rnd (a * b)) (mlaf F32.rnd f) p w n

theorem chain_leftF (f : Bool) {p w : ℕ → ℚ} {n : ℕ} (hn : 1 ≤ n) :
    chain (ratOps.mulAdd f) ratOps.zero p w n = leftF f p w n := by
  rw [ratOps_mlaf]
  exact chain_leftSum (mlaf_law rnd_rnd f) hn

theorem scalar_leftF (f : Bool) {p w : ℕ → ℚ} {n : ℕ} (hn : 1 ≤ n) :
    floatVal (ratOps.scalar f) n p w = leftF f p w n := by
  rw [ratOps_scalar]
  exact floatVal_leftSum (o := f32Ops F32.rnd f) (mlaf_law rnd_rnd f) hn

/-- Is the multiply-add of the vertical pass fused? -/
def vFused (cpu : Cpu) (fma fused : Bool) : Bool := if cpu.avx2 then fma else if cpu.sse41 then false else fused

/-- Is the multiply-add of the horizontal pass fused? (not one channel, not four with AVX2) -/
def hFused (cpu : Cpu) (fma fused : Bool) (N : ℕ) : Bool :=
  if N = 3 ∧ cpu.sse41 then fma else if N = 4 ∧ cpu.sse41 then false else fused

theorem vvF32_left (cpu : Cpu) (fma fused : Bool) (fw : FilterWeights ℚ) (y q : ℕ) (P : ℕ → ℕ → ℚ)
    (hn : 1 ≤ (fw.bound y).size) :
    vvF32 cpu fma fused ratOps fw y q P = leftF (vFused cpu fma fused) (fun k => P ((fw.bound y).start + k) q)
      (fun k => fw.weight y k) (fw.bound y).size := by
  unfold vvF32 vFused
  dsimp only
  split_ifs
  · exact chain_leftF _ hn
  · exact chain_leftF _ hn
  · exact scalar_leftF _ hn

theorem hvF32_left (cpu : Cpu) (fma fused : Bool) {N : ℕ} (hN : N = 2 ∨ N = 3 ∨ N = 4 ∧ cpu.avx2 = false)
    (fw : FilterWeights ℚ) (H y x c : ℕ) (r : ℕ → ℚ) (hn : 1 ≤ (fw.bound x).size) :
    hvF32 cpu fma fused ratOps N fw H y x c r = leftF (hFused cpu fma fused N)
      (fun k => r (((fw.bound x).start + k) * N + c)) (fun k => fw.weight x k) (fw.bound x).size := by
  unfold hvF32 hFused
  dsimp only
  rw [if_neg (by omega : ¬ (N = 1 ∧ cpu.sse41 = true))]
  by_cases h3 : N = 3 ∧ cpu.sse41 = true
  · rw [if_pos h3, if_pos h3]
    exact chain_leftF _ hn
  rw [if_neg h3, if_neg h3]
  rw [if_neg (show ¬ (N = 4 ∧ cpu.avx2 = true) by
    rintro ⟨rfl, h⟩
    rcases hN with h' | h' | h'
    · omega
    · omega
    · rw [h'.2] at h; exact absurd h (by decide))]
  by_cases h4 : N = 4 ∧ cpu.sse41 = true
  · rw [if_pos h4, if_pos h4]
    exact chain_leftF _ hn
  · rw [if_neg h4, if_neg h4]
    exact scalar_leftF _ hn

/-! ### windows of one or two taps -/

theorem leftF_rep (f : Bool) {p w : ℕ → ℚ} {n : ℕ} : F32.rnd (leftF f p w n) = leftF f p w n := by
  unfold leftF leftSum
  cases n - 1 with
  | zero => exact rnd_rnd _
  | succ m =>
    rw [chain]
    unfold mlaf
    cases f
    · exact rnd_rnd _
    · exact rnd_rnd _

theorem rnd_zero' : F32.rnd 0 = 0 := F32.rnd_zero

theorem tapSum_zeros (f : Bool) (p w : ℕ → ℚ) (l : List ℕ) :
    tapSum (mlaOf F32.rnd f) 0 p w (l.map fun k => (none, some k)) = 0 := by
  induction l using List.reverseRecOn with
  | nil => rfl
  | append_singleton l a ih =>
    rw [List.map_append, List.map_singleton, tapSum_snoc, ih]
    simp [mlaOf, rnd_zero']

theorem pairSum_small (f : Bool) {p w : ℕ → ℚ} {n : ℕ} (hn : 1 ≤ n) (h2 : n ≤ 2) :
    pairSum ratOps.add (ratOps.mulAdd f) ratOps.zero p w n = leftF f p w n := by
  have e0 : (n - 1) / 2 = 0 := by omega
  have el : lastTaps n = List.range n := by
    unfold lastTaps; rw [e0, Nat.mul_zero, Nat.sub_zero, List.range_eq_range']
  unfold pairSum lowTaps highTaps
  rw [el, e0, ratOps_mulAdd]
  have e1 := tapSum_zeros f p w (List.range n)
  have e2 : tapSum (mlaOf F32.rnd f) 0 p w ((List.range n).map use) = leftF f p w n := by
    rw [← chain_eq_tapSum]
    exact chain_leftF f hn
  simp only [List.range_zero, List.map_nil, List.nil_append]
  have e3 : ratOps.zero = 0 := rfl
  rw [e3, e1, e2]
  have e4 : ratOps.add (leftF f p w n) 0 = F32.rnd (leftF f p w n + 0) := rfl
  rw [e4, add_zero, leftF_rep]

theorem quadSum_small (f single : Bool) {p w : ℕ → ℚ} {n : ℕ} (hn : 1 ≤ n) (h2 : n ≤ 2) :
    quadSum ratOps.add (ratOps.mulAdd f) ratOps.zero single p w n = leftF f p w n := by
  have e0 : (n - 1) / 4 = 0 := by omega
  have e9 : (n - 9) / 8 = 0 := by omega
  have eb : planeBlocks single n = [] := by
    unfold planeBlocks
    cases single <;> simp [e0, e9]
  have et : ∀ i, planeTaps single n i = (List.range n).map fun k => if i = 0 then use k else (none, some k) := by
    intro i
    unfold planeTaps planeTail
    rw [eb, e0]
    dsimp only
    rw [if_neg (by omega), if_neg (by omega), List.range_eq_range']
    simp
  have e3 : ratOps.zero = 0 := rfl
  unfold quadSum
  dsimp only
  rw [ratOps_mulAdd, e3, et, et, et, et]
  have z : ∀ i, i ≠ 0 → tapSum (mlaOf F32.rnd f) 0 p w ((List.range n).map fun k => if i = 0 then use k else (none, some k)) = 0 := by
    intro i hi
    simp only [if_neg hi]
    exact tapSum_zeros f p w _
  rw [z 1 (by omega), z 2 (by omega), z 3 (by omega)]
  have e2 : tapSum (mlaOf F32.rnd f) 0 p w ((List.range n).map fun k => if 0 = 0 then use k else (none, some k)) = leftF f p w n := by
    simp only [if_true]
    have := chain_eq_tapSum (mlaOf F32.rnd f) 0 p w n
    rw [show (fun k => use k) = use from rfl, ← this]
    exact chain_leftF f hn
  rw [e2]
  have e4 : ∀ a b, ratOps.add a b = F32.rnd (a + b) := fun _ _ => rfl
  simp only [e4, add_zero, rnd_zero', leftF_rep]

/-! ### accuracy -/

theorem rnd_near (q : ℚ) : |F32.rnd q - q| ≤ uR * |q| + etaR := by
  have := F32.rnd_err_le q
  unfold uR etaR
  linarith

/-- Handlers that add every tap once: everything but single rows of one channel with windows of more than 16. -/
def Once (cpu : Cpu) (N H y n : ℕ) : Prop := N = 1 → cpu.sse41 = true → y < H / 4 * 4 ∨ n ≤ 16

theorem vvF32_near (cpu : Cpu) (fma fused : Bool) (fw : FilterWeights ℚ) (y q : ℕ) (P : ℕ → ℕ → ℚ)
    (hn : 1 ≤ (fw.bound y).size) :
    Near ((fw.bound y).size + 3) (8 * (fw.bound y).size + 3) (vvF32 cpu fma fused ratOps fw y q P)
      (∑ k ∈ range (fw.bound y).size, P ((fw.bound y).start + k) q * fw.weight y k)
      (∑ k ∈ range (fw.bound y).size, |P ((fw.bound y).start + k) q| * |fw.weight y k|) := by
  rw [vvF32_left cpu fma fused fw y q P hn, ← chain_leftF _ hn, ratOps_mulAdd]
  exact chain_near rnd_near _ _ _ _

theorem hvF32_near (cpu : Cpu) (fma fused : Bool) {N : ℕ} (fw : FilterWeights ℚ) (H y x c : ℕ) (r : ℕ → ℚ)
    (hn : 1 ≤ (fw.bound x).size) (ho : Once cpu N H y (fw.bound x).size) :
    Near ((fw.bound x).size + 3) (8 * (fw.bound x).size + 3) (hvF32 cpu fma fused ratOps N fw H y x c r)
      (∑ k ∈ range (fw.bound x).size, r (((fw.bound x).start + k) * N + c) * fw.weight x k)
      (∑ k ∈ range (fw.bound x).size, |r (((fw.bound x).start + k) * N + c)| * |fw.weight x k|) := by
  unfold hvF32
  dsimp only
  split_ifs with c1
  · refine quadSum_near rnd_near _ _ _ _ hn ?_
    intro hs
    rcases ho c1.1 c1.2 with h | h
    · exact absurd (of_decide_eq_true hs) (by simpa using h)
    · exact h
  · exact chain_near rnd_near _ _ _ _
  · exact pairSum_near rnd_near _ _ _ hn
  · exact chain_near rnd_near _ _ _ _
  · rw [scalar_leftF _ hn, ← chain_leftF _ hn]
    exact chain_near rnd_near _ _ _ _

end PicScale
