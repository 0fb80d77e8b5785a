import Verif.Lemmas.Relate
import Verif.Props.FlatF32

/-!
Property theorems C268 - C270: brighter floating point pictures give brighter results, negated pictures negated results,
and the results of averaging filters stay in the range of the source.
-/

namespace PicScale

open F32 Spec

theorem respects_le : Respects (· ≤ ·) (0 ≤ ·) where
  zero := le_refl _
  wzero := le_refl _
  add := fun _ _ _ _ h1 h2 => rnd_mono (add_le_add h1 h2)
  mul := fun _ _ _ h hw => rnd_mono (mul_le_mul_of_nonneg_right h hw)
  fma := fun _ _ _ _ _ h hw hc => rnd_mono (add_le_add (mul_le_mul_of_nonneg_right h hw) hc)

theorem respects_neg : Respects (fun a b => b = -a) (fun _ => True) where
  zero := by norm_num
  wzero := trivial
  add := fun _ _ _ _ h1 h2 => by rw [h1, h2, ← rnd_neg]; ring_nf
  mul := fun _ _ _ h _ => by rw [h, ← rnd_neg]; ring_nf
  fma := fun _ _ _ _ _ h _ hc => by rw [h, hc, ← rnd_neg]; ring_nf

/-- Weights of both passes satisfy `Q`. -/
def WeightsAre (Q : ℚ → Prop) (L : Lib) (r : ResamplingFunction) (store into : Image ℚ) : Prop :=
  (∀ fw, tableOf L r store.height into.height = some fw → ∀ i k, Q (fw.weight i k)) ∧
    ∀ fw, tableOf L r store.width into.width = some fw → ∀ i k, Q (fw.weight i k)

theorem weightsAre_nonneg {W N : ℕ} {L : Lib} {r : ResamplingFunction} {store into : Image ℚ} (hr : Averages L r)
    (h : AcceptedF W N r store into) : WeightsAre (0 ≤ ·) L r store into := by
  obtain ⟨_, _, c3, _⟩ := checkResize_ok.1 h.checked
  constructor
  · intro fw e i k
    obtain ⟨fw', e', hn⟩ := C16_nonneg_partial L r hr store.height into.height c3.2.1 h.small.2 (fun ha => (h.area ha).2)
    rw [show generateWeights rnd (filterOf rnd L r) store.height into.height = some fw from e] at e'
    obtain rfl := Option.some.inj e'
    exact weight_nonneg_of hn i k
  · intro fw e i k
    obtain ⟨fw', e', hn⟩ := C16_nonneg_partial L r hr store.width into.width c3.1 h.small.1 (fun ha => (h.area ha).1)
    rw [show generateWeights rnd (filterOf rnd L r) store.width into.width = some fw from e] at e'
    obtain rfl := Option.some.inj e'
    exact weight_nonneg_of hn i k

/-- Related pictures have related results, on every x86 CPU. -/
theorem f32X86_rel {R : ℚ → ℚ → Prop} {Q : ℚ → Prop} (hR : Respects R Q) {W N : ℕ} {L : Lib} {r : ResamplingFunction}
    {store store' into out out' : Image ℚ} (h : AcceptedF W N r store into) (h' : AcceptedF W N r store' into)
    (hq : WeightsAre Q L r store into) (cpu : Cpu) (fma fused : Bool) (hp : Related R N store store')
    (ho : genericResize W N (formatF32X86 cpu fma fused ratOps N) L r store into = some (.ok (), out))
    (ho' : genericResize W N (formatF32X86 cpu fma fused ratOps N) L r store' into = some (.ok (), out')) :
    ∀ y x c, y < into.height → x < into.width → c < N →
      R (pxD 0 out.buffer (into.strideOf N) N y x c) (pxD 0 out'.buffer (into.strideOf N) N y x c) := by
  obtain ⟨vf, hf, o, ev, eh, Tv, Th, o1, _, _, o4⟩ := f32X86_raw (L := L) h cpu fma fused ratOps
  obtain ⟨vf', hf', o', ev', eh', _, _, o1', _, _, o4'⟩ := f32X86_raw (L := L) h' cpu fma fused ratOps
  rw [← hp.height, ev] at ev'
  rw [← hp.width, eh] at eh'
  obtain rfl := Option.some.inj ev'
  obtain rfl := Option.some.inj eh'
  rw [ho] at o1
  rw [ho'] at o1'
  obtain rfl : out = o := by simpa using o1
  obtain rfl : out' = o' := by simpa using o1'
  intro y x c hy hx hc
  unfold pxD
  rw [o4 y x c hy hx hc, o4' y x c hy hx hc, ← hp.width, ← hp.height, Option.getD_some, Option.getD_some]
  refine sepFun_rel Tv Th hy hx (fun j k hj hk => ?_)
    (fun q e => vvF32_rel hR cpu fma fused vf (Tv.size_pos y hy) e fun k _ => hq.1 _ ev y k)
    (fun r r' e => hvF32_rel hR cpu fma fused hf (Th.size_pos x hx) e fun k _ => hq.2 _ eh x k)
  rw [rowPos_pxD, rowPos_pxD]
  exact hp.samples j k c hj hk hc

/-- Related pictures have related results, on AArch64. -/
theorem f32Neon_rel {R : ℚ → ℚ → Prop} {Q : ℚ → Prop} (hR : Respects R Q) {W N : ℕ} {L : Lib} {r : ResamplingFunction}
    {store store' into out out' : Image ℚ} (h : AcceptedF W N r store into) (h' : AcceptedF W N r store' into)
    (h8 : NeonSafe N store into) (h8' : NeonSafe N store' into)
    (hq : WeightsAre Q L r store into) (hp : Related R N store store')
    (ho : genericResize W N (formatF32Neon ratOps N) L r store into = some (.ok (), out))
    (ho' : genericResize W N (formatF32Neon ratOps N) L r store' into = some (.ok (), out')) :
    ∀ y x c, y < into.height → x < into.width → c < N →
      R (pxD 0 out.buffer (into.strideOf N) N y x c) (pxD 0 out'.buffer (into.strideOf N) N y x c) := by
  obtain ⟨vf, hf, o, ev, eh, Tv, Th, o1, _, _, o4⟩ := f32Neon_raw (L := L) h h8 ratOps
  obtain ⟨vf', hf', o', ev', eh', _, _, o1', _, _, o4'⟩ := f32Neon_raw (L := L) h' h8' ratOps
  rw [← hp.height, ev] at ev'
  rw [← hp.width, eh] at eh'
  obtain rfl := Option.some.inj ev'
  obtain rfl := Option.some.inj eh'
  rw [ho] at o1
  rw [ho'] at o1'
  obtain rfl : out = o := by simpa using o1
  obtain rfl : out' = o' := by simpa using o1'
  intro y x c hy hx hc
  unfold pxD
  rw [o4 y x c hy hx hc, o4' y x c hy hx hc, ← hp.width, ← hp.height, Option.getD_some, Option.getD_some]
  refine sepFun_rel Tv Th hy hx (fun j k hj hk => ?_)
    (fun q e => vvNeonF_rel hR vf e fun k _ => hq.1 _ ev y k)
    (fun r r' e => hvNeonF_rel hR hf (Th.size_pos x hx) e fun k _ => hq.2 _ eh x k)
  rw [rowPos_pxD, rowPos_pxD]
  exact hp.samples j k c hj hk hc

/-! ### C268: brighter in, brighter out -/

/-- **C268, x86.** With a filter without negative weights, raising samples of a float picture never lowers a sample of the
result: any number of channels, any x86 CPU, with or without FMA, exactly (rounding included). -/
theorem C268_f32_monotone {W N : ℕ} {L : Lib} {r : ResamplingFunction} (hr : Averages L r)
    {store store' into out out' : Image ℚ} (h : AcceptedF W N r store into) (h' : AcceptedF W N r store' into)
    (cpu : Cpu) (fma fused : Bool) (hp : Related (· ≤ ·) N store store')
    (ho : genericResize W N (formatF32X86 cpu fma fused ratOps N) L r store into = some (.ok (), out))
    (ho' : genericResize W N (formatF32X86 cpu fma fused ratOps N) L r store' into = some (.ok (), out')) :
    ∀ y x c, y < into.height → x < into.width → c < N →
      pxD 0 out.buffer (into.strideOf N) N y x c ≤ pxD 0 out'.buffer (into.strideOf N) N y x c :=
  f32X86_rel respects_le h h' (weightsAre_nonneg hr h) cpu fma fused hp ho ho'

/-- **C268, AArch64.** -/
theorem C268_f32_monotone_neon {W N : ℕ} {L : Lib} {r : ResamplingFunction} (hr : Averages L r)
    {store store' into out out' : Image ℚ} (h : AcceptedF W N r store into) (h' : AcceptedF W N r store' into)
    (h8 : NeonSafe N store into) (h8' : NeonSafe N store' into) (hp : Related (· ≤ ·) N store store')
    (ho : genericResize W N (formatF32Neon ratOps N) L r store into = some (.ok (), out))
    (ho' : genericResize W N (formatF32Neon ratOps N) L r store' into = some (.ok (), out')) :
    ∀ y x c, y < into.height → x < into.width → c < N →
      pxD 0 out.buffer (into.strideOf N) N y x c ≤ pxD 0 out'.buffer (into.strideOf N) N y x c :=
  f32Neon_rel respects_le h h' h8 h8' (weightsAre_nonneg hr h) hp ho ho'

/-! ### C269: negated pictures -/

theorem weightsAre_true (L : Lib) (r : ResamplingFunction) (store into : Image ℚ) :
    WeightsAre (fun _ => True) L r store into := ⟨fun _ _ _ _ => trivial, fun _ _ _ _ => trivial⟩

/-- **C269, x86.** Changing the sign of every sample of a float picture changes the sign of every sample of the result, and
nothing else: every filter, any number of channels, any x86 CPU, with or without FMA. -/
theorem C269_f32_negated {W N : ℕ} {L : Lib} {r : ResamplingFunction} {store store' into out out' : Image ℚ}
    (h : AcceptedF W N r store into) (h' : AcceptedF W N r store' into) (cpu : Cpu) (fma fused : Bool)
    (hp : Related (fun a b => b = -a) N store store')
    (ho : genericResize W N (formatF32X86 cpu fma fused ratOps N) L r store into = some (.ok (), out))
    (ho' : genericResize W N (formatF32X86 cpu fma fused ratOps N) L r store' into = some (.ok (), out')) :
    ∀ y x c, y < into.height → x < into.width → c < N →
      pxD 0 out'.buffer (into.strideOf N) N y x c = -pxD 0 out.buffer (into.strideOf N) N y x c :=
  f32X86_rel respects_neg h h' (weightsAre_true L r store into) cpu fma fused hp ho ho'

/-- **C269, AArch64.** -/
theorem C269_f32_negated_neon {W N : ℕ} {L : Lib} {r : ResamplingFunction} {store store' into out out' : Image ℚ}
    (h : AcceptedF W N r store into) (h' : AcceptedF W N r store' into)
    (h8 : NeonSafe N store into) (h8' : NeonSafe N store' into) (hp : Related (fun a b => b = -a) N store store')
    (ho : genericResize W N (formatF32Neon ratOps N) L r store into = some (.ok (), out))
    (ho' : genericResize W N (formatF32Neon ratOps N) L r store' into = some (.ok (), out')) :
    ∀ y x c, y < into.height → x < into.width → c < N →
      pxD 0 out'.buffer (into.strideOf N) N y x c = -pxD 0 out.buffer (into.strideOf N) N y x c :=
  f32Neon_rel respects_neg h h' h8 h8' (weightsAre_true L r store into) hp ho ho'

/-! ### C270: results stay in the range of the source -/

theorem pxD_of_sample {S : Type} {d s : S} {buf : List S} {stride N y x c : ℕ} (h : sample buf stride N y x c = some s) :
    pxD d buf stride N y x c = s := by unfold pxD; rw [h]; rfl

theorem averaging2_averages {L : Lib} {r : ResamplingFunction} (h : r ∈ averaging2) : Averages L r :=
  averages_of2 h

/-- **C270, x86.** A float picture with samples from `m` to `M`, resized with an averaging filter of support two: samples of
the result lie between `m` and `M` up to `flatErr` of these. Planes as in C267. -/
theorem C270_f32_range {W N n : ℕ} {m M : ℚ} {L : Lib} {r : ResamplingFunction} {store into : Image ℚ}
    (hr : r ∈ averaging2) (h : AcceptedF W N r store into) (h15 : store.width ≤ 2 ^ 15 ∧ store.height ≤ 2 ^ 15)
    (cpu : Cpu) (fma fused : Bool) (hn : n ≤ 2 ^ 15) (hw : WindowsF L r store into n)
    (hp : N = 1 → cpu.sse41 = true → n ≤ 16 ∨ into.height % 4 = 0)
    (hrange : ∀ y x c, y < store.height → x < store.width → c < N →
      m ≤ pxD 0 store.buffer (store.strideOf N) N y x c ∧ pxD 0 store.buffer (store.strideOf N) N y x c ≤ M) :
    ∃ out, genericResize W N (formatF32X86 cpu fma fused ratOps N) L r store into = some (.ok (), out) ∧
      ∀ y x c, y < into.height → x < into.width → c < N →
        m - flatErr n m ≤ pxD 0 out.buffer (into.strideOf N) N y x c ∧
          pxD 0 out.buffer (into.strideOf N) N y x c ≤ M + flatErr n M := by
  obtain ⟨_, c2, c3, _⟩ := checkResize_ok.1 h.checked
  obtain ⟨_, _, o, _, _, _, _, ho, _⟩ := f32X86_raw (L := L) h cpu fma fused ratOps
  refine ⟨o, ho, fun y x c hy hx hc => ?_⟩
  obtain ⟨a, a1, a2⟩ := C267_flat_f32 (L := L) (v := m) (Or.inl hr) (filled_accepted m h) h15 cpu fma fused hn hw hp
    (fun y x c hy hx hc => filled_sample m h.channels.1 c2 hy hx hc)
  obtain ⟨b, b1, b2⟩ := C267_flat_f32 (L := L) (v := M) (Or.inl hr) (filled_accepted M h) h15 cpu fma fused hn hw hp
    (fun y x c hy hx hc => filled_sample M h.channels.1 c2 hy hx hc)
  obtain ⟨s, s1, s2⟩ := a2 y x c hy hx hc
  obtain ⟨t, t1, t2⟩ := b2 y x c hy hx hc
  have q1 := C268_f32_monotone (averaging2_averages hr) (filled_accepted m h) h cpu fma fused
    ⟨rfl, rfl, fun y x c hy hx hc => by
      rw [pxD_of_sample (filled_sample m h.channels.1 c2 hy hx hc)]; exact (hrange y x c hy hx hc).1⟩ a1 ho y x c hy hx hc
  have q2 := C268_f32_monotone (averaging2_averages hr) h (filled_accepted M h) cpu fma fused
    ⟨rfl, rfl, fun y x c hy hx hc => by
      rw [pxD_of_sample (filled_sample M h.channels.1 c2 hy hx hc)]; exact (hrange y x c hy hx hc).2⟩ ho b1 y x c hy hx hc
  rw [pxD_of_sample s1] at q1
  rw [pxD_of_sample t1] at q2
  rw [abs_le] at s2 t2
  constructor <;> linarith [s2.1, t2.2]

/-- **C270, AArch64.** -/
theorem C270_f32_range_neon {W N n : ℕ} {m M : ℚ} {L : Lib} {r : ResamplingFunction} {store into : Image ℚ}
    (hr : r ∈ averaging2) (h : AcceptedF W N r store into) (h8 : NeonSafe N store into)
    (h15 : store.width ≤ 2 ^ 15 ∧ store.height ≤ 2 ^ 15) (hn : n ≤ 2 ^ 15) (hw : WindowsF L r store into n)
    (hp : N = 1 → n ≤ 16 ∨ into.height % 4 = 0)
    (hrange : ∀ y x c, y < store.height → x < store.width → c < N →
      m ≤ pxD 0 store.buffer (store.strideOf N) N y x c ∧ pxD 0 store.buffer (store.strideOf N) N y x c ≤ M) :
    ∃ out, genericResize W N (formatF32Neon ratOps N) L r store into = some (.ok (), out) ∧
      ∀ y x c, y < into.height → x < into.width → c < N →
        m - flatErr n m ≤ pxD 0 out.buffer (into.strideOf N) N y x c ∧
          pxD 0 out.buffer (into.strideOf N) N y x c ≤ M + flatErr n M := by
  by_cases h1 : N = 1
  · rw [C169_f32_neon_x86 h h8 (by omega)]
    exact C270_f32_range hr h h15 _ _ _ hn hw (fun a _ => hp a) hrange
  · rw [f32Neon_scalar h h8 (Or.inl h1)]
    exact C270_f32_range hr h h15 _ _ _ hn hw (fun a => absurd a h1) hrange

/-- Negative samples never arise from a picture without any: exactly, without an error term. -/
theorem C270_f32_nonneg {W N : ℕ} {L : Lib} {r : ResamplingFunction} {store into out : Image ℚ}
    (hr : Averages L r) (h : AcceptedF W N r store into) (cpu : Cpu) (fma fused : Bool)
    (hpos : ∀ y x c, y < store.height → x < store.width → c < N → 0 ≤ pxD 0 store.buffer (store.strideOf N) N y x c)
    (ho : genericResize W N (formatF32X86 cpu fma fused ratOps N) L r store into = some (.ok (), out)) :
    ∀ y x c, y < into.height → x < into.width → c < N → 0 ≤ pxD 0 out.buffer (into.strideOf N) N y x c := by
  have hR : Respects (fun a _ => 0 ≤ a) (0 ≤ ·) :=
    ⟨le_refl _, le_refl _, fun _ _ _ _ a b => rnd_nonneg (add_nonneg a b), fun _ _ _ a w => rnd_nonneg (mul_nonneg a w),
      fun _ _ _ _ _ a w c => rnd_nonneg (add_nonneg (mul_nonneg a w) c)⟩
  exact f32X86_rel hR h h (weightsAre_nonneg hr h) cpu fma fused ⟨rfl, rfl, hpos⟩ ho ho

/-! ### examples -/

/-- The demonstration picture of C94 with its green raised, negated, and plain. -/
def Demo.neg4 : Image ℚ := { Demo.fx 4 6 5 with buffer := (Demo.fx 4 6 5).buffer.map (fun v => -v) }
def Demo.up4 : Image ℚ := { Demo.fx 4 6 5 with buffer := (Demo.fx 4 6 5).buffer.map (fun v => v + 1) }

theorem Demo.pxD_map (f : ℚ → ℚ) {y x c : ℕ} (hy : y < 5) (hx : x < 6) (hc : c < 4) :
    pxD 0 ((Demo.fx 4 6 5).buffer.map f) 24 4 y x c = f (pxD 0 (Demo.fx 4 6 5).buffer 24 4 y x c) := by
  have hl : (Demo.fx 4 6 5).buffer.length = 120 := by decide +kernel
  unfold pxD sample
  rw [List.getElem?_map, List.getElem?_eq_getElem (by rw [hl]; omega)]
  rfl

example {out out' : Image ℚ}
    (ho : genericResize (2 ^ 64) 4 (formatF32X86 ⟨true, true⟩ true true ratOps 4) demoLib .bilinear (Demo.fx 4 6 5) (Demo.fz 4 2 3) = some (.ok (), out))
    (ho' : genericResize (2 ^ 64) 4 (formatF32X86 ⟨true, true⟩ true true ratOps 4) demoLib .bilinear Demo.up4 (Demo.fz 4 2 3) = some (.ok (), out')) :
    pxD 0 out.buffer 10 4 2 1 3 ≤ pxD 0 out'.buffer 10 4 2 1 3 :=
  C268_f32_monotone (L := demoLib) (Or.inl (by decide)) Demo.fcall4 (store' := Demo.up4) (by constructor <;> decide +kernel)
    _ _ _ ⟨rfl, rfl, fun y x c hy hx hc => by
      show _ ≤ pxD 0 ((Demo.fx 4 6 5).buffer.map (fun v => v + 1)) 24 4 y x c
      rw [Demo.pxD_map _ hy hx hc]
      show pxD 0 (Demo.fx 4 6 5).buffer 24 4 y x c ≤ _
      linarith⟩ ho ho' 2 1 3 (by decide) (by decide) (by decide)

example {out out' : Image ℚ}
    (ho : genericResize (2 ^ 64) 4 (formatF32Neon ratOps 4) demoLib .bilinear (Demo.fx 4 6 5) (Demo.fz 4 2 3) = some (.ok (), out))
    (ho' : genericResize (2 ^ 64) 4 (formatF32Neon ratOps 4) demoLib .bilinear Demo.up4 (Demo.fz 4 2 3) = some (.ok (), out')) :
    pxD 0 out.buffer 10 4 2 1 3 ≤ pxD 0 out'.buffer 10 4 2 1 3 :=
  C268_f32_monotone_neon (L := demoLib) (Or.inl (by decide)) Demo.fcall4 (store' := Demo.up4) (by constructor <;> decide +kernel)
    (neonSafe_four _ _) (neonSafe_four _ _) ⟨rfl, rfl, fun y x c hy hx hc => by
      show _ ≤ pxD 0 ((Demo.fx 4 6 5).buffer.map (fun v => v + 1)) 24 4 y x c
      rw [Demo.pxD_map _ hy hx hc]
      show pxD 0 (Demo.fx 4 6 5).buffer 24 4 y x c ≤ _
      linarith⟩ ho ho' 2 1 3 (by decide) (by decide) (by decide)

example {out out' : Image ℚ}
    (ho : genericResize (2 ^ 64) 4 (formatF32X86 ⟨true, true⟩ true true ratOps 4) demoLib .bilinear (Demo.fx 4 6 5) (Demo.fz 4 2 3) = some (.ok (), out))
    (ho' : genericResize (2 ^ 64) 4 (formatF32X86 ⟨true, true⟩ true true ratOps 4) demoLib .bilinear Demo.neg4 (Demo.fz 4 2 3) = some (.ok (), out')) :
    pxD 0 out'.buffer 10 4 2 1 3 = -pxD 0 out.buffer 10 4 2 1 3 :=
  C269_f32_negated (L := demoLib) Demo.fcall4 (store' := Demo.neg4) (by constructor <;> decide +kernel)
    _ _ _ ⟨rfl, rfl, fun y x c hy hx hc => Demo.pxD_map _ hy hx hc⟩ ho ho' 2 1 3 (by decide) (by decide) (by decide)

example {out out' : Image ℚ}
    (ho : genericResize (2 ^ 64) 4 (formatF32Neon ratOps 4) demoLib .bilinear (Demo.fx 4 6 5) (Demo.fz 4 2 3) = some (.ok (), out))
    (ho' : genericResize (2 ^ 64) 4 (formatF32Neon ratOps 4) demoLib .bilinear Demo.neg4 (Demo.fz 4 2 3) = some (.ok (), out')) :
    pxD 0 out'.buffer 10 4 2 1 3 = -pxD 0 out.buffer 10 4 2 1 3 :=
  C269_f32_negated_neon (L := demoLib) Demo.fcall4 (store' := Demo.neg4) (by constructor <;> decide +kernel)
    (neonSafe_four _ _) (neonSafe_four _ _) ⟨rfl, rfl, fun y x c hy hx hc => Demo.pxD_map _ hy hx hc⟩ ho ho' 2 1 3
    (by decide) (by decide) (by decide)

theorem Demo.fx_range : ∀ y < 5, ∀ x < 6, ∀ c < 4, (0 : ℚ) ≤ pxD 0 (Demo.fx 4 6 5).buffer 24 4 y x c ∧
    pxD 0 (Demo.fx 4 6 5).buffer 24 4 y x c ≤ 598 := by decide +kernel

/-- Samples from 0 to 598 give results from 0 - 2^-140 to 598.03. -/
example : ∃ out, genericResize (2 ^ 64) 4 (formatF32X86 ⟨true, true⟩ true true ratOps 4) demoLib .bilinear (Demo.fx 4 6 5)
    (Demo.fz 4 2 3) = some (.ok (), out) ∧ -(1 / 2 ^ 138) ≤ pxD 0 out.buffer 10 4 2 1 3 ∧
      pxD 0 out.buffer 10 4 2 1 3 ≤ 598 + 3 / 50 := by
  obtain ⟨out, h1, h2⟩ := C270_f32_range (L := demoLib) (r := .bilinear) (m := 0) (M := 598) (n := 6) (by decide) Demo.fcall4
    ⟨by decide, by decide⟩ ⟨true, true⟩ true true (by norm_num) (windowsF_le Demo.fcall4) (fun h => absurd h (by norm_num))
    (fun y x c hy hx hc => Demo.fx_range y hy x hx c hc)
  have h := h2 2 1 3 (by decide) (by decide) (by decide)
  refine ⟨out, h1, ?_, ?_⟩
  · refine le_trans ?_ h.1
    unfold flatErr
    norm_num
  · refine le_trans h.2 ?_
    unfold flatErr
    norm_num

example : ∃ out, genericResize (2 ^ 64) 4 (formatF32Neon ratOps 4) demoLib .bilinear (Demo.fx 4 6 5)
    (Demo.fz 4 2 3) = some (.ok (), out) ∧ -(1 / 2 ^ 138) ≤ pxD 0 out.buffer 10 4 2 1 3 ∧
      pxD 0 out.buffer 10 4 2 1 3 ≤ 598 + 3 / 50 := by
  obtain ⟨out, h1, h2⟩ := C270_f32_range_neon (L := demoLib) (r := .bilinear) (m := 0) (M := 598) (n := 6) (by decide) Demo.fcall4
    (neonSafe_four _ _) ⟨by decide, by decide⟩ (by norm_num) (windowsF_le Demo.fcall4) (fun h => absurd h (by norm_num))
    (fun y x c hy hx hc => Demo.fx_range y hy x hx c hc)
  have h := h2 2 1 3 (by decide) (by decide) (by decide)
  refine ⟨out, h1, ?_, ?_⟩
  · refine le_trans ?_ h.1
    unfold flatErr
    norm_num
  · refine le_trans h.2 ?_
    unfold flatErr
    norm_num

example {out : Image ℚ} (ho : genericResize (2 ^ 64) 4 (formatF32X86 ⟨true, true⟩ true true ratOps 4) demoLib .bilinear
    (Demo.fx 4 6 5) (Demo.fz 4 2 3) = some (.ok (), out)) : 0 ≤ pxD 0 out.buffer 10 4 2 1 3 :=
  C270_f32_nonneg (L := demoLib) (Or.inl (by decide)) Demo.fcall4 _ _ _
    (fun y x c hy hx hc => (Demo.fx_range y hy x hx c hc).1) ho 2 1 3 (by decide) (by decide) (by decide)

end PicScale
