import Verif.Lemmas.X86F32Value
import Verif.SpecFloatErr

/-!
Property theorems about resizes of f32 images on x86 CPUs: C87–C95.
-/

namespace PicScale

open Spec Finset

variable {A : Type}

theorem AcceptedF.by {W N : ℕ} {r : ResamplingFunction} {store into : Image A} (h : AcceptedF W N r store into)
    (cpu : Cpu) (fma fused : Bool) (o : VecOps A) (L : Lib) :
    AcceptedBy W N (formatF32X86 cpu fma fused o N) (fun _ => True) (fun _ _ => True) L r store into :=
  ⟨h.channels, h.checked, h.filter, h.sizes, h.small, h.area, h.fits, fun _ _ => trivial,
    ⟨fun _ _ _ => trivial, fun _ _ _ => trivial⟩⟩

/-- Every accepted resize, as a function of the source picture. -/
theorem f32X86_raw {W N : ℕ} {L : Lib} {r : ResamplingFunction} {store into : Image A}
    (h : AcceptedF W N r store into) (cpu : Cpu) (fma fused : Bool) (o : VecOps A) :
    ∃ vf hf out, tableOf L r store.height into.height = some vf ∧ tableOf L r store.width into.width = some hf ∧
      ValidTable vf store.height into.height ∧ ValidTable hf store.width into.width ∧
      genericResize W N (formatF32X86 cpu fma fused o N) L r store into = some (.ok (), out) ∧
      SameShape out into ∧ PaddingKept N into out ∧
      ∀ y x c, y < into.height → x < into.width → c < N →
        sample out.buffer (into.strideOf N) N y x c = some (sepFun N store.width store.height
          into.width into.height (vvF32 cpu fma fused o vf) (hvF32 cpu fma fused o N hf into.height)
          (rowPos o.zero store.buffer (store.strideOf N)) y x c) := by
  obtain ⟨vf, hf, out, h1, h2, h3, h4, _, _, h5⟩ :=
    resize_fun (passFun_f32X86 cpu fma fused o h.channels into.bitDepth) (h.by cpu fma fused o L) rfl
  exact ⟨vf, hf, out, h1, h2, h3, h4, h5⟩

/-! ### C87: no out-of-bounds access -/

/-- **C87.** On every x86 CPU, an accepted resize of f32 images — any number of channels, any samples, any
arithmetic (so also NaN and infinities) — returns normally, reads nothing outside the buffers, and writes only
pixels of the destination. -/
theorem C87_f32_no_oob {W N : ℕ} {L : Lib} {r : ResamplingFunction} {store into : Image A}
    (h : AcceptedF W N r store into) (cpu : Cpu) (fma fused : Bool) (o : VecOps A) :
    ∃ out, genericResize W N (formatF32X86 cpu fma fused o N) L r store into = some (.ok (), out) ∧
      SameShape out into ∧ PaddingKept N into out := by
  obtain ⟨_, _, out, _, _, _, _, h1, h2, h3, _⟩ := f32X86_raw (L := L) h cpu fma fused o
  exact ⟨out, h1, h2, h3⟩

/-- A source of `w × h` pixels of `N` channels with varied samples; all rows are equal. -/
def Demo.fx (N w h : ℕ) : Image ℚ :=
  { buffer := (List.range (N * w * h)).map (fun i => (((i % (N * w)) * (i % (N * w)) + 3 * (i % (N * w)) : ℕ) : ℚ)),
    channels := N, width := w, height := h, stride := N * w, bitDepth := 0 }
/-- A destination with two elements of padding per row. -/
def Demo.fz (N w h : ℕ) : Image ℚ :=
  { buffer := List.replicate ((N * w + 2) * h) (-1), channels := N, width := w, height := h, stride := N * w + 2, bitDepth := 0 }

theorem Demo.fcall4 : AcceptedF (2 ^ 64) 4 .bilinear (Demo.fx 4 6 5) (Demo.fz 4 2 3) := by
  constructor <;> decide +kernel

example : ∃ out, genericResize (2 ^ 64) 4 (formatF32X86 ⟨true, true⟩ true true ratOps 4) demoLib .bilinear (Demo.fx 4 6 5)
    (Demo.fz 4 2 3) = some (.ok (), out) ∧ PaddingKept 4 (Demo.fz 4 2 3) out := by
  obtain ⟨out, h1, _, h3⟩ := C87_f32_no_oob (L := demoLib) Demo.fcall4 ⟨true, true⟩ true true ratOps
  exact ⟨out, h1, h3⟩

/-! ### C88: the vertical pass on every CPU -/

/-- Two resizes give the same image if their pixel formulas agree. -/
theorem f32X86_same {W N : ℕ} {L : Lib} {r : ResamplingFunction} {store into : Image ℚ}
    (h : AcceptedF W N r store into) (cpu cpu' : Cpu) (fma fma' fused fused' : Bool)
    (hv : ∀ vf y q P, store.height ≠ into.height → ValidTable vf store.height into.height → y < into.height →
      vvF32 cpu fma fused ratOps vf y q P = vvF32 cpu' fma' fused' ratOps vf y q P)
    (hh : ∀ hf y x c p, tableOf L r store.width into.width = some hf → store.width ≠ into.width →
      ValidTable hf store.width into.width → x < into.width → y < into.height → c < N →
      hvF32 cpu fma fused ratOps N hf into.height y x c p = hvF32 cpu' fma' fused' ratOps N hf into.height y x c p) :
    genericResize W N (formatF32X86 cpu fma fused ratOps N) L r store into =
      genericResize W N (formatF32X86 cpu' fma' fused' ratOps N) L r store into := by
  obtain ⟨vf, hf, out, ev, eh, Tv, Th, o1, o2, o3, o4⟩ := f32X86_raw (L := L) h cpu fma fused ratOps
  obtain ⟨vf', hf', out', ev', eh', _, _, o1', o2', o3', o4'⟩ := f32X86_raw (L := L) h cpu' fma' fused' ratOps
  rw [ev] at ev'
  rw [eh] at eh'
  obtain rfl := Option.some.inj ev'
  obtain rfl := Option.some.inj eh'
  rw [o1, o1', image_ext o2 o2' o3 o3' ?_]
  intro y x c hy hx hc
  rw [o4 y x c hy hx hc, o4' y x c hy hx hc]
  congr 1
  unfold sepFun
  dsimp only
  by_cases e1 : store.width = into.width
  · have e2 : store.height ≠ into.height := by have := h.sizes; tauto
    rw [if_pos e1, if_pos e1, if_neg e2, if_neg e2]
    exact hv _ _ _ _ e2 Tv hy
  · rw [if_neg e1, if_neg e1, hh _ _ _ _ _ eh e1 Th hx hy hc]
    congr 1
    funext q
    by_cases e2 : store.height = into.height
    · rw [if_pos e2, if_pos e2]
    · rw [if_neg e2, if_neg e2]
      exact hv _ _ _ _ e2 Tv hy

/-- **C88.** A resize of finite f32 images that keeps the width gives, on every x86 CPU and for any number of
channels, exactly the image of the portable code (C45) whose multiply-add is fused if and only if AVX2 and FMA
are present (with no vector instructions: if the build fuses). -/
theorem C88_f32_vertical {W N : ℕ} {L : Lib} {r : ResamplingFunction} {store into : Image ℚ}
    (h : AcceptedF W N r store into) (hw : store.width = into.width) (cpu : Cpu) (fma fused : Bool) :
    genericResize W N (formatF32X86 cpu fma fused ratOps N) L r store into =
      genericResize W N (formatFloat (f32Ops F32.rnd
        (if cpu.avx2 then fma else if cpu.sse41 then false else fused)) 0 N) L r store into := by
  rw [← formatF32X86_none false]
  apply f32X86_same h
  · intro vf y q P _ Tv hy
    rw [vvF32_left _ _ _ _ _ _ _ (Tv.size_pos y hy), vvF32_left _ _ _ _ _ _ _ (Tv.size_pos y hy)]
    simp [vFused]
  · intro _ _ _ _ _ _ hne
    exact absurd hw hne

/-- So two CPUs without FMA give the same bits. -/
theorem C88_f32_vertical_cpus {W N : ℕ} {L : Lib} {r : ResamplingFunction} {store into : Image ℚ}
    (h : AcceptedF W N r store into) (hw : store.width = into.width) (cpu cpu' : Cpu) :
    genericResize W N (formatF32X86 cpu false false ratOps N) L r store into =
      genericResize W N (formatF32X86 cpu' false false ratOps N) L r store into := by
  rw [C88_f32_vertical h hw, C88_f32_vertical h hw]
  simp

theorem Demo.fcallV : AcceptedF (2 ^ 64) 1 .bilinear (Demo.fx 1 9 5) (Demo.fz 1 9 3) := by
  constructor <;> decide +kernel

example : genericResize (2 ^ 64) 1 (formatF32X86 ⟨true, true⟩ true false ratOps 1) demoLib .bilinear (Demo.fx 1 9 5)
    (Demo.fz 1 9 3) = genericResize (2 ^ 64) 1 (formatFloat (f32Ops F32.rnd true) 0 1) demoLib .bilinear (Demo.fx 1 9 5)
    (Demo.fz 1 9 3) := C88_f32_vertical Demo.fcallV (by decide) ⟨true, true⟩ true false

/-! ### C89: two and three channels on every CPU -/

/-- **C89.** A resize of finite f32 images of two or three channels — and of four without AVX2 — gives on every
x86 CPU without FMA exactly the image of the portable code. -/
theorem C89_f32_two_three {W N : ℕ} {L : Lib} {r : ResamplingFunction} {store into : Image ℚ}
    (h : AcceptedF W N r store into) (cpu : Cpu) (hN : N = 2 ∨ N = 3 ∨ N = 4 ∧ cpu.avx2 = false) :
    genericResize W N (formatF32X86 cpu false false ratOps N) L r store into =
      genericResize W N (formatFloat (f32Ops F32.rnd false) 0 N) L r store into := by
  rw [← formatF32X86_none false]
  apply f32X86_same h
  · intro vf y q P _ Tv hy
    rw [vvF32_left _ _ _ _ _ _ _ (Tv.size_pos y hy), vvF32_left _ _ _ _ _ _ _ (Tv.size_pos y hy)]
    simp [vFused]
  · intro hf y x c p _ _ Th hx _ _
    rw [hvF32_left _ _ _ hN _ _ _ _ _ _ (Th.size_pos x hx),
      hvF32_left _ _ _ (by rcases hN with h | h | h <;> simp [h]) _ _ _ _ _ _ (Th.size_pos x hx)]
    simp [hFused]

/-- And with AVX2 and FMA, in a build that fuses, exactly the image of the portable code that fuses. -/
theorem C89_f32_two_three_fma {W N : ℕ} {L : Lib} {r : ResamplingFunction} {store into : Image ℚ}
    (h : AcceptedF W N r store into) (hN : N = 2 ∨ N = 3) :
    genericResize W N (formatF32X86 ⟨true, true⟩ true true ratOps N) L r store into =
      genericResize W N (formatFloat (f32Ops F32.rnd true) 0 N) L r store into := by
  rw [← formatF32X86_none false]
  apply f32X86_same h
  · intro vf y q P _ Tv hy
    rw [vvF32_left _ _ _ _ _ _ _ (Tv.size_pos y hy), vvF32_left _ _ _ _ _ _ _ (Tv.size_pos y hy)]
    simp [vFused]
  · intro hf y x c p _ _ Th hx _ _
    rw [hvF32_left _ _ _ (by tauto) _ _ _ _ _ _ (Th.size_pos x hx),
      hvF32_left _ _ _ (by tauto) _ _ _ _ _ _ (Th.size_pos x hx)]
    rcases hN with rfl | rfl <;> simp [hFused]

theorem Demo.fcall3 : AcceptedF (2 ^ 64) 3 .bilinear (Demo.fx 3 6 5) (Demo.fz 3 2 3) := by
  constructor <;> decide +kernel

example : genericResize (2 ^ 64) 3 (formatF32X86 ⟨true, false⟩ false false ratOps 3) demoLib .bilinear (Demo.fx 3 6 5)
    (Demo.fz 3 2 3) = genericResize (2 ^ 64) 3 (formatFloat (f32Ops F32.rnd false) 0 3) demoLib .bilinear (Demo.fx 3 6 5)
    (Demo.fz 3 2 3) := C89_f32_two_three Demo.fcall3 _ (by decide)
example : genericResize (2 ^ 64) 3 (formatF32X86 ⟨true, true⟩ true true ratOps 3) demoLib .bilinear (Demo.fx 3 6 5)
    (Demo.fz 3 2 3) = genericResize (2 ^ 64) 3 (formatFloat (f32Ops F32.rnd true) 0 3) demoLib .bilinear (Demo.fx 3 6 5)
    (Demo.fz 3 2 3) := C89_f32_two_three_fma Demo.fcall3 (by decide)

/-! ### C90: accuracy -/

theorem near_floatErr {n : ℕ} {x s T : ℚ} (h : Near (n + 3) (8 * n + 3) x s T) : |x - s| ≤ floatErr n T := by
  refine le_trans h.err (le_of_eq ?_)
  unfold floatErr uR etaR
  push_cast
  ring

theorem floatErr_mono (n : ℕ) {a b : ℚ} (h : a ≤ b) : floatErr n a ≤ floatErr n b := by
  unfold floatErr
  have h1 : (0 : ℚ) ≤ (1 + 1 / 2 ^ 24) ^ (n + 3) - 1 := by
    have := one_le_pow (n + 3)
    unfold uR at this
    linarith
  have := mul_le_mul_of_nonneg_left h h1
  linarith

theorem floatErr_nonneg (n : ℕ) {a : ℚ} (h : 0 ≤ a) : 0 ≤ floatErr n a := by
  unfold floatErr
  have h1 : (0 : ℚ) ≤ (1 + 1 / 2 ^ 24) ^ (n + 3) - 1 := by
    have := one_le_pow (n + 3)
    unfold uR at this
    linarith
  positivity

theorem pow_small (k : ℕ) (hk : k ≤ 2 ^ 23) : (1 + 1 / 2 ^ 24 : ℚ) ^ k ≤ 1 + 2 * k / 2 ^ 24 := by
  induction k with
  | zero => simp
  | succ k ih =>
    have ih := ih (by omega)
    have hk' : (k : ℚ) ≤ 2 ^ 23 := by exact_mod_cast (by omega : k ≤ 2 ^ 23)
    rw [pow_succ]
    push_cast
    have h0 : (0 : ℚ) ≤ 1 + 1 / 2 ^ 24 := by norm_num
    have h1 := mul_le_mul_of_nonneg_right ih h0
    have e : (1 + 2 * (k : ℚ) / 2 ^ 24) * (1 + 1 / 2 ^ 24) = 1 + 2 * k / 2 ^ 24 + 1 / 2 ^ 24 + k * (2 / 2 ^ 48) := by ring
    rw [e] at h1
    have h2 : (k : ℚ) * (2 / 2 ^ 48) ≤ 1 / 2 ^ 24 := by
      calc (k : ℚ) * (2 / 2 ^ 48) ≤ 2 ^ 23 * (2 / 2 ^ 48) := mul_le_mul_of_nonneg_right hk' (by norm_num)
        _ = 1 / 2 ^ 24 := by norm_num
    have e3 : (1 : ℚ) + 2 * ((k : ℚ) + 1) / 2 ^ 24 = 1 + 2 * k / 2 ^ 24 + 1 / 2 ^ 24 + 1 / 2 ^ 24 := by ring
    rw [e3]
    linarith

/-- How large the bound is: `floatErr n A` is at most `(n + 3) / 2^23` of the size of the terms (plus an
underflow term far below any normal number) for windows of up to four million taps. -/
theorem C90_bound_size (n : ℕ) (hn : n ≤ 2 ^ 22) {T : ℚ} (hT : 0 ≤ T) :
    floatErr n T ≤ (n + 3) / 2 ^ 23 * T + (8 * n + 3) / 2 ^ 149 := by
  have h := pow_small (n + 3) (by omega)
  have h1 : (2 * ((n + 3 : ℕ) : ℚ) / 2 ^ 24) ≤ 1 := by
    have : ((n + 3 : ℕ) : ℚ) ≤ 2 ^ 23 := by exact_mod_cast (by omega : n + 3 ≤ 2 ^ 23)
    norm_num at *
    linarith
  have h2 : (1 + 1 / 2 ^ 24 : ℚ) ^ (n + 3) ≤ 2 := by linarith
  unfold floatErr
  have e1 : ((1 + 1 / 2 ^ 24 : ℚ) ^ (n + 3) - 1) * T ≤ (n + 3) / 2 ^ 23 * T := by
    apply mul_le_mul_of_nonneg_right _ hT
    push_cast at h
    norm_num at *
    linarith
  have e2 : (8 * (n : ℚ) + 3) * (1 + 1 / 2 ^ 24 : ℚ) ^ (n + 3) ≤ (8 * n + 3) * 2 :=
    mul_le_mul_of_nonneg_left h2 (by positivity)
  have e3 : (8 * (n : ℚ) + 3) * (1 + 1 / 2 ^ 24 : ℚ) ^ (n + 3) / 2 ^ 150 ≤ (8 * n + 3) * 2 / 2 ^ 150 :=
    div_le_div_of_nonneg_right e2 (by positivity)
  have e4 : (8 * (n : ℚ) + 3) * 2 / 2 ^ 150 = (8 * n + 3) / 2 ^ 149 := by rw [pow_succ]; field_simp
  linarith

/-- **C90 (height).** Resizing finite f32 images of any number of channels with the width kept: on every CPU,
with or without FMA, every sample is within the binary32 error bound of the exact weighted sum of its column. -/
theorem C90_f32_accuracy_vertical {W N : ℕ} {L : Lib} {r : ResamplingFunction} {store into : Image ℚ}
    (h : AcceptedF W N r store into) (hw : store.width = into.width) (cpu : Cpu) (fma fused : Bool) :
    ∃ vf out, tableOf L r store.height into.height = some vf ∧
      genericResize W N (formatF32X86 cpu fma fused ratOps N) L r store into = some (.ok (), out) ∧
      ∀ y x c, y < into.height → x < into.width → c < N → ∃ v, sample out.buffer (into.strideOf N) N y x c = some v ∧
        |v - dotSum (vf.bound y).size (fun k => pxD 0 store.buffer (store.strideOf N) N ((vf.bound y).start + k) x c)
            (fun k => vf.weight y k)| ≤
          floatErr (vf.bound y).size (termSize (vf.bound y).size
            (fun k => pxD 0 store.buffer (store.strideOf N) N ((vf.bound y).start + k) x c) (fun k => vf.weight y k)) := by
  obtain ⟨vf, hf, out, ev, _, Tv, _, o1, _, _, o4⟩ := f32X86_raw (L := L) h cpu fma fused ratOps
  have hne : store.height ≠ into.height := by have := h.sizes; tauto
  refine ⟨vf, out, ev, o1, fun y x c hy hx hc => ⟨_, o4 y x c hy hx hc, ?_⟩⟩
  simp only [sepFun, if_pos hw, if_neg hne]
  have := near_floatErr (vvF32_near cpu fma fused vf y (x * N + c)
    (rowPos ratOps.zero store.buffer (store.strideOf N)) (Tv.size_pos y hy))
  simp only [rowPos_pxD] at this
  exact this

/-- The horizontal pass of one pixel adds every tap of its window exactly once: always, except on CPUs with
SSE4.1 in the last `height % 4` rows of one-channel images, when the window has more than 16 taps. -/
def TapsOnce (cpu : Cpu) (N height y n : ℕ) : Prop :=
  N = 1 → cpu.sse41 = true → y < height - height % 4 ∨ n ≤ 16

theorem TapsOnce.once {cpu : Cpu} {N H y n : ℕ} (h : TapsOnce cpu N H y n) : Once cpu N H y n := by
  intro h1 h2
  rcases h h1 h2 with h | h
  · left; omega
  · exact Or.inr h

/-- **C90 (width).** The same with the height kept, for samples whose taps are added once — in particular all
samples of images with two, three or four channels. -/
theorem f32_accuracy_horizontal {W N : ℕ} {L : Lib} {r : ResamplingFunction} {store into : Image ℚ}
    (h : AcceptedF W N r store into) (hh : store.height = into.height) (cpu : Cpu) (fma fused : Bool) :
    ∃ hf out, tableOf L r store.width into.width = some hf ∧
      genericResize W N (formatF32X86 cpu fma fused ratOps N) L r store into = some (.ok (), out) ∧
      ∀ y x c, y < into.height → x < into.width → c < N → TapsOnce cpu N into.height y (hf.bound x).size →
        ∃ v, sample out.buffer (into.strideOf N) N y x c = some v ∧
        |v - dotSum (hf.bound x).size (fun k => pxD 0 store.buffer (store.strideOf N) N y ((hf.bound x).start + k) c)
            (fun k => hf.weight x k)| ≤
          floatErr (hf.bound x).size (termSize (hf.bound x).size
            (fun k => pxD 0 store.buffer (store.strideOf N) N y ((hf.bound x).start + k) c) (fun k => hf.weight x k)) := by
  obtain ⟨vf, hf, out, _, eh, _, Th, o1, _, _, o4⟩ := f32X86_raw (L := L) h cpu fma fused ratOps
  have hne : store.width ≠ into.width := by have := h.sizes; tauto
  refine ⟨hf, out, eh, o1, fun y x c hy hx hc ho => ⟨_, o4 y x c hy hx hc, ?_⟩⟩
  simp only [sepFun, if_pos hh, if_neg hne]
  have := near_floatErr (hvF32_near cpu fma fused hf into.height y x c
    (rowPos ratOps.zero store.buffer (store.strideOf N) y) (Th.size_pos x hx) ho.once)
  simp only [rowPos_pxD] at this
  exact this

/-- Two passes: error of the second plus the weighted errors of the first. -/
theorem two_pass_err {n : ℕ} {v V w : ℕ → ℚ} {out B e : ℚ} (hB : ∀ k, k < n → |V k| ≤ B) (he : ∀ k, k < n → |v k - V k| ≤ e)
    (ho : |out - dotSum n v w| ≤ floatErr n (termSize n v w)) :
    |out - dotSum n V w| ≤ floatErr n ((∑ k ∈ range n, |w k|) * (B + e)) + (∑ k ∈ range n, |w k|) * e := by
  have h1 : termSize n v w ≤ (∑ k ∈ range n, |w k|) * (B + e) := by
    unfold termSize
    rw [Finset.sum_mul]
    apply Finset.sum_le_sum
    intro k hk
    rw [mul_comm]
    apply mul_le_mul_of_nonneg_left _ (abs_nonneg _)
    have a := hB k (Finset.mem_range.1 hk)
    have b := he k (Finset.mem_range.1 hk)
    have c := abs_add_le (v k - V k) (V k)
    rw [sub_add_cancel] at c
    linarith
  have h2 : |dotSum n v w - dotSum n V w| ≤ (∑ k ∈ range n, |w k|) * e := by
    unfold dotSum
    rw [← Finset.sum_sub_distrib, Finset.sum_mul]
    refine le_trans (Finset.abs_sum_le_sum_abs _ _) ?_
    apply Finset.sum_le_sum
    intro k hk
    rw [← sub_mul, abs_mul, mul_comm]
    exact mul_le_mul_of_nonneg_left (he k (Finset.mem_range.1 hk)) (abs_nonneg _)
  have h3 := floatErr_mono n h1
  have h4 := abs_add_le (out - dotSum n v w) (dotSum n v w - dotSum n V w)
  rw [sub_add_sub_cancel] at h4
  linarith

theorem dotSum_le {n : ℕ} {p w : ℕ → ℚ} {M : ℚ} (h : ∀ k, k < n → |p k| ≤ M) :
    |dotSum n p w| ≤ (∑ k ∈ range n, |w k|) * M ∧ termSize n p w ≤ (∑ k ∈ range n, |w k|) * M := by
  have h2 : termSize n p w ≤ (∑ k ∈ range n, |w k|) * M := by
    unfold termSize
    rw [Finset.sum_mul]
    apply Finset.sum_le_sum
    intro k hk
    rw [mul_comm]
    exact mul_le_mul_of_nonneg_left (h k (Finset.mem_range.1 hk)) (abs_nonneg _)
  refine ⟨le_trans (le_trans (Finset.abs_sum_le_sum_abs _ _) ?_) h2, h2⟩
  unfold termSize
  apply Finset.sum_le_sum
  intro k _
  rw [abs_mul]

/-- **C90 (both).** If both dimensions change and the source samples have magnitude at most `M`: the error is
that of the horizontal sum over the (slightly inexact) columns, plus the columns' own errors. -/
theorem f32_accuracy_both {W N : ℕ} {L : Lib} {r : ResamplingFunction} {store into : Image ℚ}
    (h : AcceptedF W N r store into) (hne : store.width ≠ into.width ∧ store.height ≠ into.height)
    (cpu : Cpu) (fma fused : Bool) {M : ℚ} (hM : ∀ v ∈ store.buffer, |v| ≤ M) :
    ∃ vf hf out, tableOf L r store.height into.height = some vf ∧ tableOf L r store.width into.width = some hf ∧
      genericResize W N (formatF32X86 cpu fma fused ratOps N) L r store into = some (.ok (), out) ∧
      ∀ y x c, y < into.height → x < into.width → c < N → TapsOnce cpu N into.height y (hf.bound x).size →
        let Sv := ∑ j ∈ range (vf.bound y).size, |vf.weight y j|
        let Sh := ∑ k ∈ range (hf.bound x).size, |hf.weight x k|
        let e := floatErr (vf.bound y).size (Sv * M)
        ∃ v, sample out.buffer (into.strideOf N) N y x c = some v ∧
        |v - dotSum (hf.bound x).size (fun k => dotSum (vf.bound y).size
              (fun j => pxD 0 store.buffer (store.strideOf N) N ((vf.bound y).start + j) ((hf.bound x).start + k) c)
              (fun j => vf.weight y j)) (fun k => hf.weight x k)| ≤
          floatErr (hf.bound x).size (Sh * (Sv * M + e)) + Sh * e := by
  obtain ⟨vf, hf, out, ev, eh, Tv, Th, o1, _, _, o4⟩ := f32X86_raw (L := L) h cpu fma fused ratOps
  refine ⟨vf, hf, out, ev, eh, o1, fun y x c hy hx hc ho => ⟨_, o4 y x c hy hx hc, ?_⟩⟩
  simp only [sepFun, if_neg hne.1, if_neg hne.2]
  have hM0 : 0 ≤ M := by
    rcases hb : store.buffer with _ | ⟨a, l⟩
    · exfalso
      obtain ⟨c1, c2, c3, _⟩ := checkResize_ok.1 h.checked
      obtain ⟨s1, s2, _⟩ := validate_ok c2
      have hN := h.channels.1
      rw [hb] at s1
      have := Nat.mul_pos c3.1 hN
      have := Nat.mul_pos (lt_of_lt_of_le this s2) c3.2.1
      simp at s1
      rcases s1 with s1 | s1
      · rw [s1] at this; simp at this
      · rw [s1] at this; simp at this
    · exact le_trans (abs_nonneg a) (hM a (by rw [hb]; exact List.mem_cons_self))
  have hP : ∀ y q, |rowPos ratOps.zero store.buffer (store.strideOf N) y q| ≤ M := by
    intro y q
    unfold rowPos
    rw [List.getD_eq_getElem?_getD]
    rcases hq : store.buffer[y * store.strideOf N + q]? with _ | v
    · simpa [ratOps] using hM0
    · exact hM v (List.mem_of_getElem? hq)
  have hcol := fun q => vvF32_near cpu fma fused vf y q (rowPos ratOps.zero store.buffer (store.strideOf N)) (Tv.size_pos y hy)
  have hrow := near_floatErr (hvF32_near cpu fma fused hf into.height y x c
    (fun q => vvF32 cpu fma fused ratOps vf y q (rowPos ratOps.zero store.buffer (store.strideOf N)))
    (Th.size_pos x hx) ho.once)
  have hb := fun q => dotSum_le (n := (vf.bound y).size) (w := fun k => vf.weight y k)
    (p := fun k => rowPos ratOps.zero store.buffer (store.strideOf N) ((vf.bound y).start + k) q) (M := M) (fun k _ => hP _ _)
  have key := two_pass_err (n := (hf.bound x).size) (w := fun k => hf.weight x k)
    (v := fun k => vvF32 cpu fma fused ratOps vf y (((hf.bound x).start + k) * N + c) (rowPos ratOps.zero store.buffer (store.strideOf N)))
    (V := fun k => dotSum (vf.bound y).size
      (fun j => rowPos ratOps.zero store.buffer (store.strideOf N) ((vf.bound y).start + j) (((hf.bound x).start + k) * N + c))
      (fun j => vf.weight y j))
    (B := (∑ j ∈ range (vf.bound y).size, |vf.weight y j|) * M)
    (e := floatErr (vf.bound y).size ((∑ j ∈ range (vf.bound y).size, |vf.weight y j|) * M))
    (fun k _ => (hb _).1)
    (fun k _ => le_trans (near_floatErr (hcol _)) (floatErr_mono _ (hb _).2)) hrow
  simp only [rowPos_pxD] at key
  exact key

/-- **C90.** The width and both-dimensions statements for two, three and four channels, without conditions on
rows or windows. -/
theorem C90_f32_accuracy_horizontal {W N : ℕ} {L : Lib} {r : ResamplingFunction} {store into : Image ℚ}
    (h : AcceptedF W N r store into) (hN : N ≠ 1) (hh : store.height = into.height) (cpu : Cpu) (fma fused : Bool) :
    ∃ hf out, tableOf L r store.width into.width = some hf ∧
      genericResize W N (formatF32X86 cpu fma fused ratOps N) L r store into = some (.ok (), out) ∧
      ∀ y x c, y < into.height → x < into.width → c < N → ∃ v, sample out.buffer (into.strideOf N) N y x c = some v ∧
        |v - dotSum (hf.bound x).size (fun k => pxD 0 store.buffer (store.strideOf N) N y ((hf.bound x).start + k) c)
            (fun k => hf.weight x k)| ≤
          floatErr (hf.bound x).size (termSize (hf.bound x).size
            (fun k => pxD 0 store.buffer (store.strideOf N) N y ((hf.bound x).start + k) c) (fun k => hf.weight x k)) := by
  obtain ⟨hf, out, e, o1, o2⟩ := f32_accuracy_horizontal (L := L) h hh cpu fma fused
  exact ⟨hf, out, e, o1, fun y x c hy hx hc => o2 y x c hy hx hc (fun h1 => absurd h1 hN)⟩

theorem C90_f32_accuracy_both {W N : ℕ} {L : Lib} {r : ResamplingFunction} {store into : Image ℚ}
    (h : AcceptedF W N r store into) (hN : N ≠ 1) (hne : store.width ≠ into.width ∧ store.height ≠ into.height)
    (cpu : Cpu) (fma fused : Bool) {M : ℚ} (hM : ∀ v ∈ store.buffer, |v| ≤ M) :
    ∃ vf hf out, tableOf L r store.height into.height = some vf ∧ tableOf L r store.width into.width = some hf ∧
      genericResize W N (formatF32X86 cpu fma fused ratOps N) L r store into = some (.ok (), out) ∧
      ∀ y x c, y < into.height → x < into.width → c < N →
        let Sv := ∑ j ∈ range (vf.bound y).size, |vf.weight y j|
        let Sh := ∑ k ∈ range (hf.bound x).size, |hf.weight x k|
        let e := floatErr (vf.bound y).size (Sv * M)
        ∃ v, sample out.buffer (into.strideOf N) N y x c = some v ∧
        |v - dotSum (hf.bound x).size (fun k => dotSum (vf.bound y).size
              (fun j => pxD 0 store.buffer (store.strideOf N) N ((vf.bound y).start + j) ((hf.bound x).start + k) c)
              (fun j => vf.weight y j)) (fun k => hf.weight x k)| ≤
          floatErr (hf.bound x).size (Sh * (Sv * M + e)) + Sh * e := by
  obtain ⟨vf, hf, out, e, e', o1, o2⟩ := f32_accuracy_both (L := L) h hne cpu fma fused hM
  exact ⟨vf, hf, out, e, e', o1, fun y x c hy hx hc => o2 y x c hy hx hc (fun h1 => absurd h1 hN)⟩

/-- So the images of two CPUs, with any use of FMA, differ by at most twice the bound. -/
theorem C90_f32_cpus_close {W N : ℕ} {L : Lib} {r : ResamplingFunction} {store into : Image ℚ}
    (h : AcceptedF W N r store into) (hN : N ≠ 1) (hne : store.width ≠ into.width ∧ store.height ≠ into.height)
    (cpu cpu' : Cpu) (fma fma' fused fused' : Bool) {M : ℚ} (hM : ∀ v ∈ store.buffer, |v| ≤ M) :
    ∃ vf hf out out', tableOf L r store.height into.height = some vf ∧ tableOf L r store.width into.width = some hf ∧
      genericResize W N (formatF32X86 cpu fma fused ratOps N) L r store into = some (.ok (), out) ∧
      genericResize W N (formatF32X86 cpu' fma' fused' ratOps N) L r store into = some (.ok (), out') ∧
      ∀ y x c, y < into.height → x < into.width → c < N →
        let Sv := ∑ j ∈ range (vf.bound y).size, |vf.weight y j|
        let Sh := ∑ k ∈ range (hf.bound x).size, |hf.weight x k|
        let e := floatErr (vf.bound y).size (Sv * M)
        ∃ v v', sample out.buffer (into.strideOf N) N y x c = some v ∧ sample out'.buffer (into.strideOf N) N y x c = some v' ∧
          |v - v'| ≤ 2 * (floatErr (hf.bound x).size (Sh * (Sv * M + e)) + Sh * e) := by
  obtain ⟨vf, hf, out, ev, eh, o1, o2⟩ := C90_f32_accuracy_both (L := L) h hN hne cpu fma fused hM
  obtain ⟨vf', hf', out', ev', eh', o1', o2'⟩ := C90_f32_accuracy_both (L := L) h hN hne cpu' fma' fused' hM
  rw [ev] at ev'
  rw [eh] at eh'
  obtain rfl := Option.some.inj ev'
  obtain rfl := Option.some.inj eh'
  refine ⟨vf, hf, out, out', ev, eh, o1, o1', fun y x c hy hx hc => ?_⟩
  obtain ⟨v, a1, a2⟩ := o2 y x c hy hx hc
  obtain ⟨v', b1, b2⟩ := o2' y x c hy hx hc
  refine ⟨v, v', a1, b1, ?_⟩
  have := abs_sub_le v (dotSum (hf.bound x).size (fun k => dotSum (vf.bound y).size
              (fun j => pxD 0 store.buffer (store.strideOf N) N ((vf.bound y).start + j) ((hf.bound x).start + k) c)
              (fun j => vf.weight y j)) (fun k => hf.weight x k)) v'
  rw [abs_sub_comm (dotSum _ _ _) v'] at this
  linarith

example : ∃ out, genericResize (2 ^ 64) 4 (formatF32X86 ⟨true, true⟩ true true ratOps 4) demoLib .bilinear (Demo.fx 4 6 5)
    (Demo.fz 4 2 3) = some (.ok (), out) := by
  obtain ⟨_, _, out, _, _, _, h1, _⟩ := C90_f32_cpus_close (L := demoLib) Demo.fcall4 (by decide) (by decide) ⟨true, true⟩
    ⟨true, true⟩ true true true true (M := 1000) (by decide +kernel)
  exact ⟨out, h1⟩

/-- The bound is small: 16 taps of weight-sum 1 and samples up to 1 give an error below `3 / 10^6`. -/
example : floatErr 16 1 < 3 / 10 ^ 6 := by
  have := C90_bound_size 16 (by norm_num) (T := 1) (by norm_num)
  norm_num at *
  linarith

/-! ### C91: accuracy of one channel -/

/-- **C91 (partial).** One channel: the same bounds hold in every row of a group of four (rows below
`height - height % 4`) and wherever the window has at most 16 taps; missing are the last `height % 4` rows with
larger windows, where CPUs with SSE4.1 add some taps twice (`C91_violated`). -/
theorem C91_f32_accuracy_plane_partial {W : ℕ} {L : Lib} {r : ResamplingFunction} {store into : Image ℚ}
    (h : AcceptedF W 1 r store into) (hh : store.height = into.height) (cpu : Cpu) (fma fused : Bool) :
    ∃ hf out, tableOf L r store.width into.width = some hf ∧
      genericResize W 1 (formatF32X86 cpu fma fused ratOps 1) L r store into = some (.ok (), out) ∧
      ∀ y x, y < into.height → x < into.width → y < into.height - into.height % 4 ∨ (hf.bound x).size ≤ 16 →
        ∃ v, sample out.buffer (into.strideOf 1) 1 y x 0 = some v ∧
        |v - dotSum (hf.bound x).size (fun k => pxD 0 store.buffer (store.strideOf 1) 1 y ((hf.bound x).start + k) 0)
            (fun k => hf.weight x k)| ≤
          floatErr (hf.bound x).size (termSize (hf.bound x).size
            (fun k => pxD 0 store.buffer (store.strideOf 1) 1 y ((hf.bound x).start + k) 0) (fun k => hf.weight x k)) := by
  obtain ⟨hf, out, e, o1, o2⟩ := f32_accuracy_horizontal (L := L) h hh cpu fma fused
  exact ⟨hf, out, e, o1, fun y x hy hx hc => o2 y x 0 hy hx (by norm_num) (fun _ _ => hc)⟩

theorem C91_f32_accuracy_plane_both_partial {W : ℕ} {L : Lib} {r : ResamplingFunction} {store into : Image ℚ}
    (h : AcceptedF W 1 r store into) (hne : store.width ≠ into.width ∧ store.height ≠ into.height)
    (cpu : Cpu) (fma fused : Bool) {M : ℚ} (hM : ∀ v ∈ store.buffer, |v| ≤ M) :
    ∃ vf hf out, tableOf L r store.height into.height = some vf ∧ tableOf L r store.width into.width = some hf ∧
      genericResize W 1 (formatF32X86 cpu fma fused ratOps 1) L r store into = some (.ok (), out) ∧
      ∀ y x, y < into.height → x < into.width → y < into.height - into.height % 4 ∨ (hf.bound x).size ≤ 16 →
        let Sv := ∑ j ∈ range (vf.bound y).size, |vf.weight y j|
        let Sh := ∑ k ∈ range (hf.bound x).size, |hf.weight x k|
        let e := floatErr (vf.bound y).size (Sv * M)
        ∃ v, sample out.buffer (into.strideOf 1) 1 y x 0 = some v ∧
        |v - dotSum (hf.bound x).size (fun k => dotSum (vf.bound y).size
              (fun j => pxD 0 store.buffer (store.strideOf 1) 1 ((vf.bound y).start + j) ((hf.bound x).start + k) 0)
              (fun j => vf.weight y j)) (fun k => hf.weight x k)| ≤
          floatErr (hf.bound x).size (Sh * (Sv * M + e)) + Sh * e := by
  obtain ⟨vf, hf, out, e, e', o1, o2⟩ := f32_accuracy_both (L := L) h hne cpu fma fused hM
  exact ⟨vf, hf, out, e, e', o1, fun y x hy hx hc => o2 y x 0 hy hx (by norm_num) (fun _ _ => hc)⟩

theorem Demo.fcall1 : AcceptedF (2 ^ 64) 1 .bilinear (Demo.fx 1 9 5) (Demo.fz 1 2 5) := by
  constructor <;> decide +kernel
theorem Demo.fcall1b : AcceptedF (2 ^ 64) 1 .bilinear (Demo.fx 1 9 5) (Demo.fz 1 2 4) := by
  constructor <;> decide +kernel

example : ∃ v out, genericResize (2 ^ 64) 1 (formatF32X86 ⟨true, true⟩ true true ratOps 1) demoLib .bilinear (Demo.fx 1 9 5)
    (Demo.fz 1 2 5) = some (.ok (), out) ∧ sample out.buffer 4 1 3 1 0 = some v := by
  obtain ⟨_, out, _, h1, h2⟩ := C91_f32_accuracy_plane_partial (L := demoLib) Demo.fcall1 (by decide) ⟨true, true⟩ true true
  obtain ⟨v, hv, _⟩ := h2 3 1 (by decide) (by decide) (Or.inl (by decide))
  exact ⟨v, out, h1, hv⟩
example : ∃ v out, genericResize (2 ^ 64) 1 (formatF32X86 ⟨true, true⟩ true true ratOps 1) demoLib .bilinear (Demo.fx 1 9 5)
    (Demo.fz 1 2 4) = some (.ok (), out) ∧ sample out.buffer 4 1 3 1 0 = some v := by
  obtain ⟨_, _, out, _, _, h1, h2⟩ := C91_f32_accuracy_plane_both_partial (L := demoLib) Demo.fcall1b (by decide)
    ⟨true, true⟩ true true (M := 1000) (by decide +kernel)
  obtain ⟨v, hv, _⟩ := h2 3 1 (by decide) (by decide) (Or.inl (by decide))
  exact ⟨v, out, h1, hv⟩

/-- **C91 (violated).** With SSE4.1, shrinking a 17 × 5 plane of ones to 1 × 5 gives 1.0000002 in four rows and
1.498 in the fifth: the last row is half as bright again. -/
theorem C91_violated :
    genericResize (2 ^ 64) 1 (formatF32X86 ⟨true, false⟩ false false ratOps 1) demoLib .bilinear
      ⟨List.replicate 85 1, 1, 17, 5, 17, 0⟩ ⟨[0, 0, 0, 0, 0], 1, 1, 5, 1, 0⟩ =
      some (.ok (), ⟨[4194305 / 4194304, 4194305 / 4194304, 4194305 / 4194304, 4194305 / 4194304, 6281793 / 4194304],
        1, 1, 5, 1, 0⟩) := by
  decide +kernel

/-! ### C92, C93: equal rows -/

theorem equal_rows {W N : ℕ} {L : Lib} {r : ResamplingFunction} {store into : Image A}
    (h : AcceptedF W N r store into) (hh : store.height = into.height) (cpu : Cpu) (fma fused : Bool) (o : VecOps A)
    {y y' : ℕ} (hy : y < into.height) (hy' : y' < into.height)
    (hrow : ∀ x c, x < store.width → c < N →
      sample store.buffer (store.strideOf N) N y x c = sample store.buffer (store.strideOf N) N y' x c)
    (hok : ∀ hf, tableOf L r store.width into.width = some hf → ValidTable hf store.width into.width → ∀ x c p, x < into.width →
      hvF32 cpu fma fused o N hf into.height y x c p = hvF32 cpu fma fused o N hf into.height y' x c p) :
    ∃ out, genericResize W N (formatF32X86 cpu fma fused o N) L r store into = some (.ok (), out) ∧
      ∀ x c, x < into.width → c < N →
        sample out.buffer (into.strideOf N) N y x c = sample out.buffer (into.strideOf N) N y' x c := by
  obtain ⟨vf, hf, out, _, eh, _, Th, o1, _, _, o4⟩ := f32X86_raw (L := L) h cpu fma fused o
  have hne : store.width ≠ into.width := by have := h.sizes; tauto
  have hN := h.channels.1
  refine ⟨out, o1, fun x c hx hc => ?_⟩
  rw [o4 y x c hy hx hc, o4 y' x c hy' hx hc]
  simp only [sepFun, if_pos hh, if_neg hne]
  rw [hok hf eh Th x c _ hx]
  congr 1
  apply (passFun_f32X86 cpu fma fused o h.channels 0).cong_h _ _ _ _ _ _ _ _ _ Th trivial hx hc
  intro q hq
  have hx' : q / N < store.width := Nat.div_lt_of_lt_mul (by rw [Nat.mul_comm]; exact hq)
  have hc' : q % N < N := Nat.mod_lt _ hN
  have hq' : q / N * N + q % N = q := by rw [Nat.mul_comm]; exact Nat.div_add_mod q N
  rw [← hq', rowPos_pxD, rowPos_pxD]
  unfold pxD
  rw [hrow _ _ hx' hc']

/-- **C92.** Images of two or three channels on every CPU, and of four unless AVX2 and FMA are both present:
when a resize keeps the height, equal source rows become equal destination rows — wherever the rows are, and
for any samples and arithmetic. -/
theorem C92_equal_rows {W N : ℕ} {L : Lib} {r : ResamplingFunction} {store into : Image A}
    (h : AcceptedF W N r store into) (hh : store.height = into.height) (cpu : Cpu) (fma fused : Bool) (o : VecOps A)
    (hN : N = 2 ∨ N = 3 ∨ N = 4 ∧ (cpu.avx2 = false ∨ fma = false)) {y y' : ℕ} (hy : y < into.height) (hy' : y' < into.height)
    (hrow : ∀ x c, x < store.width → c < N →
      sample store.buffer (store.strideOf N) N y x c = sample store.buffer (store.strideOf N) N y' x c) :
    ∃ out, genericResize W N (formatF32X86 cpu fma fused o N) L r store into = some (.ok (), out) ∧
      ∀ x c, x < into.width → c < N →
        sample out.buffer (into.strideOf N) N y x c = sample out.buffer (into.strideOf N) N y' x c := by
  apply equal_rows h hh cpu fma fused o hy hy' hrow
  intro hf _ _ x c p hx
  unfold hvF32
  dsimp only
  have n1 : ¬ N = 1 := by omega
  rcases hN with rfl | rfl | ⟨rfl, h' | h'⟩
  · simp
  · simp
  · simp [h']
  · simp [h']

/-- Rows 0 and 4 of a 3-channel picture with AVX2 and FMA: the first is in a group of four, the second not. -/
theorem Demo.fcall3r : AcceptedF (2 ^ 64) 3 .bilinear (Demo.fx 3 6 5) (Demo.fz 3 2 5) := by
  constructor <;> decide +kernel

example : ∃ out, genericResize (2 ^ 64) 3 (formatF32X86 ⟨true, true⟩ true true ratOps 3) demoLib .bilinear (Demo.fx 3 6 5)
    (Demo.fz 3 2 5) = some (.ok (), out) ∧
    ∀ x c, x < 2 → c < 3 → sample out.buffer 8 3 0 x c = sample out.buffer 8 3 4 x c :=
  C92_equal_rows (L := demoLib) Demo.fcall3r (by decide) ⟨true, true⟩ true true ratOps (by decide) (y := 0) (y' := 4)
    (by decide) (by decide) (by
      have key : ∀ x < 6, ∀ c < 3, sample (Demo.fx 3 6 5).buffer ((Demo.fx 3 6 5).strideOf 3) 3 0 x c =
        sample (Demo.fx 3 6 5).buffer ((Demo.fx 3 6 5).strideOf 3) 3 4 x c := by decide +kernel
      exact fun x c hx hc => key x hx c hc)

/-- **C93 (partial).** One channel, or four with AVX2 and FMA: equal source rows become equal destination rows
when both are in groups of four or both are not; for one channel also when no window has more than 16 taps.
In general they need not (`C93_violated_four`, `C91_violated`). -/
theorem C93_equal_rows_partial {W N : ℕ} {L : Lib} {r : ResamplingFunction} {store into : Image A}
    (h : AcceptedF W N r store into) (hh : store.height = into.height) (cpu : Cpu) (fma fused : Bool) (o : VecOps A)
    {y y' : ℕ} (hy : y < into.height) (hy' : y' < into.height)
    (hg : (y < into.height - into.height % 4 ↔ y' < into.height - into.height % 4) ∨
      N = 1 ∧ ∀ hf x, tableOf L r store.width into.width = some hf → x < into.width → (hf.bound x).size ≤ 16)
    (hrow : ∀ x c, x < store.width → c < N →
      sample store.buffer (store.strideOf N) N y x c = sample store.buffer (store.strideOf N) N y' x c) :
    ∃ out, genericResize W N (formatF32X86 cpu fma fused o N) L r store into = some (.ok (), out) ∧
      ∀ x c, x < into.width → c < N →
        sample out.buffer (into.strideOf N) N y x c = sample out.buffer (into.strideOf N) N y' x c := by
  apply equal_rows h hh cpu fma fused o hy hy' hrow
  intro hf eh Th x c p hx
  rcases hg with hg | ⟨rfl, hg⟩
  · have e : (¬ y < into.height / 4 * 4) = (¬ y' < into.height / 4 * 4) := by
      apply propext
      rw [show into.height / 4 * 4 = into.height - into.height % 4 by omega, hg]
    unfold hvF32
    simp only [e]
  · have hs := hg hf x eh hx
    have e : ∀ b b' : Bool, quadSum o.add (o.mulAdd fma) o.zero b (fun k => p (((hf.bound x).start + k) * 1 + c))
        (fun k => o.weight (hf.weight x k)) (hf.bound x).size =
        quadSum o.add (o.mulAdd fma) o.zero b' (fun k => p (((hf.bound x).start + k) * 1 + c))
        (fun k => o.weight (hf.weight x k)) (hf.bound x).size := by
      have : ∀ b : Bool, planeBlocks b (hf.bound x).size = planeBlocks false (hf.bound x).size := by
        intro b
        cases b
        · rfl
        · exact planeBlocks_single hs
      intro b b'
      unfold quadSum planeTaps
      rw [this b, this b']
    unfold hvF32
    dsimp only
    rw [e _ (decide (¬ y' < into.height / 4 * 4))]
    simp

example : ∃ out, genericResize (2 ^ 64) 1 (formatF32X86 ⟨true, true⟩ true true ratOps 1) demoLib .bilinear (Demo.fx 1 9 5)
    (Demo.fz 1 2 5) = some (.ok (), out) ∧
    ∀ x c, x < 2 → c < 1 → sample out.buffer 4 1 0 x c = sample out.buffer 4 1 4 x c :=
  C93_equal_rows_partial (L := demoLib) Demo.fcall1 (by decide) ⟨true, true⟩ true true ratOps (y := 0) (y' := 4)
    (by decide) (by decide) (Or.inr ⟨rfl, by
      intro hf x e hx
      have hx : x < 2 := hx
      have key : (tableOf demoLib .bilinear 9 2).map (fun hf => (hf.bound 0).size ≤ 16 && (hf.bound 1).size ≤ 16) = some true := by
        decide +kernel
      have e : tableOf demoLib .bilinear 9 2 = some hf := e
      rw [e] at key
      simp only [Option.map_some, Option.some.injEq, Bool.and_eq_true, decide_eq_true_eq] at key
      interval_cases x
      · exact key.1
      · exact key.2⟩) (by
      have key : ∀ x < 9, ∀ c < 1, sample (Demo.fx 1 9 5).buffer ((Demo.fx 1 9 5).strideOf 1) 1 0 x c =
        sample (Demo.fx 1 9 5).buffer ((Demo.fx 1 9 5).strideOf 1) 1 4 x c := by decide +kernel
      exact fun x c hx hc => key x hx c hc)

/-- **C93 (violated).** With AVX2 and FMA, a 3 × 5 four-channel image whose rows are equal, shrunk to 1 × 5:
channel 2 of the last row differs from that of the other rows. -/
theorem C93_violated_four :
    (genericResize (2 ^ 64) 4 (formatF32X86 ⟨true, true⟩ true true ratOps 4) demoLib .bilinear (Demo.fx 4 3 5)
      ⟨List.replicate 20 0, 4, 1, 5, 4, 0⟩).map (fun r => (sample r.2.buffer 4 4 0 0 2, sample r.2.buffer 4 4 4 0 2)) =
      some (some (2069065 / 32768), some (16552521 / 262144)) := by
  decide +kernel

/-! ### C94: locality -/

/-- **C94.** On every CPU and for any arithmetic, a destination sample depends only on the source samples of its
channel inside its windows: two sources of the same size that agree there give the same value — whatever the
other samples are, NaN and infinities included. -/
theorem C94_f32_locality {W N : ℕ} {L : Lib} {r : ResamplingFunction} {store store' into into' : Image A}
    (h : AcceptedF W N r store into) (h' : AcceptedF W N r store' into') (cpu : Cpu) (fma fused : Bool) (o : VecOps A)
    (hsz : store'.width = store.width ∧ store'.height = store.height)
    (hdz : into'.width = into.width ∧ into'.height = into.height)
    {y x c : ℕ} (hy : y < into.height) (hx : x < into.width) (hc : c < N)
    (hp : ∀ vf hf j k, tableOf L r store.height into.height = some vf → tableOf L r store.width into.width = some hf →
      (if store.height = into.height then j = y else (vf.bound y).start ≤ j ∧ j < (vf.bound y).start + (vf.bound y).size) →
      (if store.width = into.width then k = x else (hf.bound x).start ≤ k ∧ k < (hf.bound x).start + (hf.bound x).size) →
      sample store.buffer (store.strideOf N) N j k c = sample store'.buffer (store'.strideOf N) N j k c) :
    ∃ out out', genericResize W N (formatF32X86 cpu fma fused o N) L r store into = some (.ok (), out) ∧
      genericResize W N (formatF32X86 cpu fma fused o N) L r store' into' = some (.ok (), out') ∧
      sample out.buffer (into.strideOf N) N y x c = sample out'.buffer (into'.strideOf N) N y x c := by
  obtain ⟨vf, hf, out, ev, eh, Tv, Th, o1, _, _, o4⟩ := f32X86_raw (L := L) h cpu fma fused o
  obtain ⟨vf', hf', out', ev', eh', _, _, o1', _, _, o4'⟩ := f32X86_raw (L := L) h' cpu fma fused o
  rw [hsz.2, hdz.2, ev] at ev'
  rw [hsz.1, hdz.1, eh] at eh'
  obtain rfl := Option.some.inj ev'
  obtain rfl := Option.some.inj eh'
  refine ⟨out, out', o1, o1', ?_⟩
  rw [o4 y x c hy hx hc, o4' y x c (by omega) (by omega) hc]
  congr 1
  simp only [hsz.1, hsz.2, hdz.1, hdz.2]
  have hcol : ∀ k, (if store.width = into.width then k = x else (hf.bound x).start ≤ k ∧ k < (hf.bound x).start + (hf.bound x).size) →
      (if store.height = into.height then rowPos o.zero store.buffer (store.strideOf N) y (k * N + c)
        else vvF32 cpu fma fused o vf y (k * N + c) (rowPos o.zero store.buffer (store.strideOf N))) =
      (if store.height = into.height then rowPos o.zero store'.buffer (store'.strideOf N) y (k * N + c)
        else vvF32 cpu fma fused o vf y (k * N + c) (rowPos o.zero store'.buffer (store'.strideOf N))) := by
    intro k hk
    by_cases hh : store.height = into.height
    · rw [if_pos hh, if_pos hh, rowPos_pxD, rowPos_pxD]
      unfold pxD
      rw [hp vf hf y k ev eh (by rw [if_pos hh]) hk]
    · rw [if_neg hh, if_neg hh]
      have e : ∀ j, j < (vf.bound y).size → rowPos o.zero store.buffer (store.strideOf N) ((vf.bound y).start + j) (k * N + c) =
          rowPos o.zero store'.buffer (store'.strideOf N) ((vf.bound y).start + j) (k * N + c) := by
        intro j hj
        rw [rowPos_pxD, rowPos_pxD]
        unfold pxD
        rw [hp vf hf _ k ev eh (by rw [if_neg hh]; omega) hk]
      unfold vvF32
      dsimp only
      split_ifs
      · exact chain_congr e (fun _ _ => rfl)
      · exact chain_congr e (fun _ _ => rfl)
      · exact floatVal_congr e (fun _ _ => rfl)
  unfold sepFun
  dsimp only
  by_cases hw : store.width = into.width
  · rw [if_pos hw, if_pos hw]
    exact hcol x (by rw [if_pos hw])
  · rw [if_neg hw, if_neg hw]
    have hn := Th.size_pos x hx
    have e : ∀ k, k < (hf.bound x).size → _ := fun k hk => hcol ((hf.bound x).start + k) (by rw [if_neg hw]; omega)
    unfold hvF32
    dsimp only
    split_ifs
    all_goals first
      | exact quadSum_congr hn (fun k hk => by simpa [*] using e k hk) (fun _ _ => rfl)
      | exact pairSum_congr hn (fun k hk => by simpa [*] using e k hk) (fun _ _ => rfl)
      | exact chain_congr (fun k hk => by simpa [*] using e k hk) (fun _ _ => rfl)
      | exact floatVal_congr (fun k hk => by simpa [*] using e k hk) (fun _ _ => rfl)

/-- Two pictures that differ in one channel. -/
def Demo.fx' (N w h : ℕ) : Image ℚ := { Demo.fx N w h with
  buffer := (List.range (N * w * h)).map (fun i => if i % N = 1 then 1000 else
    (((i % (N * w)) * (i % (N * w)) + 3 * (i % (N * w)) : ℕ) : ℚ)) }

theorem Demo.fcall4' : AcceptedF (2 ^ 64) 4 .bilinear (Demo.fx' 4 6 5) (Demo.fz 4 2 3) := by
  constructor <;> decide +kernel

example : ∃ out out', genericResize (2 ^ 64) 4 (formatF32X86 ⟨true, true⟩ true true ratOps 4) demoLib .bilinear (Demo.fx 4 6 5)
      (Demo.fz 4 2 3) = some (.ok (), out) ∧
    genericResize (2 ^ 64) 4 (formatF32X86 ⟨true, true⟩ true true ratOps 4) demoLib .bilinear (Demo.fx' 4 6 5)
      (Demo.fz 4 2 3) = some (.ok (), out') ∧
    sample out.buffer 10 4 1 1 0 = sample out'.buffer 10 4 1 1 0 := by
  refine C94_f32_locality (L := demoLib) Demo.fcall4 Demo.fcall4' ⟨true, true⟩ true true ratOps (by decide) (by decide)
    (by decide) (by decide) (by decide) ?_
  intro vf hf j k ev eh hj hk
  obtain ⟨vf', hf', _, ev', eh', Tv, Th, _⟩ := f32X86_raw (L := demoLib) Demo.fcall4 ⟨true, true⟩ true true ratOps
  rw [ev] at ev'
  rw [eh] at eh'
  obtain rfl := Option.some.inj ev'
  obtain rfl := Option.some.inj eh'
  rw [if_neg (by decide)] at hj hk
  have h1 : j < 5 := by have := Tv.inside 1 (by decide); exact lt_of_lt_of_le hj.2 this
  have h2 : k < 6 := by have := Th.inside 1 (by decide); exact lt_of_lt_of_le hk.2 this
  have key : ∀ j < 5, ∀ k < 6, sample (Demo.fx 4 6 5).buffer ((Demo.fx 4 6 5).strideOf 4) 4 j k 0 =
      sample (Demo.fx' 4 6 5).buffer ((Demo.fx' 4 6 5).strideOf 4) 4 j k 0 := by decide +kernel
  exact key j h1 k h2

/-! ### C95: one and four channels on two CPUs -/

/-- **C95 (partial).** One and four channels, CPUs without FMA: resizes in which no horizontal window has more
than two taps give the image of the portable code. With longer windows the order of addition depends on the
CPU and so do the results (`C95_violated`). -/
theorem C95_f32_cpus_partial {W N : ℕ} {L : Lib} {r : ResamplingFunction} {store into : Image ℚ}
    (h : AcceptedF W N r store into) (cpu : Cpu) (hN : N = 1 ∨ N = 4)
    (h2 : ∀ hf x, tableOf L r store.width into.width = some hf → x < into.width → (hf.bound x).size ≤ 2) :
    genericResize W N (formatF32X86 cpu false false ratOps N) L r store into =
      genericResize W N (formatFloat (f32Ops F32.rnd false) 0 N) L r store into := by
  rw [← formatF32X86_none false]
  apply f32X86_same h
  · intro vf y q P _ Tv hy
    rw [vvF32_left _ _ _ _ _ _ _ (Tv.size_pos y hy), vvF32_left _ _ _ _ _ _ _ (Tv.size_pos y hy)]
    simp [vFused]
  · intro hf y x c p eh _ Th hx _ _
    have hn := Th.size_pos x hx
    have hs := h2 hf x eh hx
    have key : ∀ cpu : Cpu, hvF32 cpu false false ratOps N hf into.height y x c p = leftF false
        (fun k => p (((hf.bound x).start + k) * N + c)) (fun k => hf.weight x k) (hf.bound x).size := by
      intro cpu
      unfold hvF32
      dsimp only
      split_ifs
      · exact quadSum_small _ _ hn hs
      · exact chain_leftF _ hn
      · rw [Bool.false_and]; exact pairSum_small _ hn hs
      · exact chain_leftF _ hn
      · exact scalar_leftF _ hn
    rw [key, key]

theorem Demo.fcallUp : AcceptedF (2 ^ 64) 4 .bilinear (Demo.fx 4 2 5) (Demo.fz 4 4 3) := by
  constructor <;> decide +kernel

example : genericResize (2 ^ 64) 4 (formatF32X86 ⟨true, true⟩ false false ratOps 4) demoLib .bilinear (Demo.fx 4 2 5)
    (Demo.fz 4 4 3) = genericResize (2 ^ 64) 4 (formatFloat (f32Ops F32.rnd false) 0 4) demoLib .bilinear (Demo.fx 4 2 5)
    (Demo.fz 4 4 3) := by
  apply C95_f32_cpus_partial Demo.fcallUp _ (by decide)
  intro hf x e hx
  obtain ⟨vf', hf', _, _, eh', _, Th, _⟩ := f32X86_raw (L := demoLib) Demo.fcallUp ⟨true, true⟩ true true ratOps
  rw [e] at eh'
  obtain rfl := Option.some.inj eh'
  have := Th.inside x hx
  have h2 : (Demo.fx 4 2 5).width = 2 := rfl
  omega

/-- **C95 (violated).** Without FMA: a 6 × 1 four-channel and a 10 × 1 one-channel image, shrunk to one pixel,
give different samples on different CPUs. -/
theorem C95_violated :
    (genericResize (2 ^ 64) 4 (formatF32X86 ⟨true, true⟩ false false ratOps 4) demoLib .bilinear (Demo.fx 4 6 1)
      ⟨[0, 0, 0, 0], 4, 1, 1, 4, 0⟩).map (fun r => r.2.buffer) =
      some [1388999 / 8192, 6342429 / 32768, 1798599 / 8192, 16223801 / 65536] ∧
    (genericResize (2 ^ 64) 4 (formatF32X86 ⟨true, false⟩ false false ratOps 4) demoLib .bilinear (Demo.fx 4 6 1)
      ⟨[0, 0, 0, 0], 4, 1, 1, 4, 0⟩).map (fun r => r.2.buffer) =
      some [11111993 / 65536, 12684857 / 65536, 14388793 / 65536, 8111901 / 32768] ∧
    (genericResize (2 ^ 64) 1 (formatF32X86 ⟨true, true⟩ false false ratOps 1) demoLib .bilinear (Demo.fx 1 10 1)
      ⟨[0], 1, 1, 1, 1, 0⟩).map (fun r => r.2.buffer) = some [10660523 / 262144] ∧
    (genericResize (2 ^ 64) 1 (formatF32X86 ⟨false, false⟩ false false ratOps 1) demoLib .bilinear (Demo.fx 1 10 1)
      ⟨[0], 1, 1, 1, 1, 0⟩).map (fun r => r.2.buffer) = some [5330261 / 131072] := by
  decide +kernel

end PicScale
