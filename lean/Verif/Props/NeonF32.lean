import Verif.Lemmas.NeonF32
import Verif.Lemmas.ResizeSource
import Verif.SpecNeonF32
import Verif.Props.X86F32

/-!
Property theorems about resizes of f32 images on AArch64: C166–C174.
-/

namespace PicScale

open Spec Finset

variable {A : Type}

theorem passFun_f32Neon (o : VecOps A) {N : ℕ} (hN : 1 ≤ N ∧ N ≤ 4) (d : ℕ) :
    PassFunS N (formatF32Neon o N) d (EightReadable N) (fun _ _ => True)
      (fun fw _ y q P => vvNeonF o fw y q P) (hvNeonF o N) where
  vertical := fun src dst fw hs hd hw hdw _ hT _ h8 => verticalNeonF_ok o hN.1 src dst fw hs hd hw hdw hT h8
  horizontal := fun src dst fw hs hd hh hsw hdw _ hT _ => horizontalNeonF_ok o hN src dst fw hs hd hh hsw hdw hT
  cong_h := by
    intro fw inn out H y x c p p' hT _ hx hc h
    have hn := hT.size_pos x hx
    have hin := hT.inside x hx
    have hs : ∀ k, k < (fw.bound x).size → p (((fw.bound x).start + k) * N + c) = p' (((fw.bound x).start + k) * N + c) := by
      intro k hk
      apply h
      have : ((fw.bound x).start + k + 1) * N ≤ inn * N := Nat.mul_le_mul_right _ (by omega)
      rw [Nat.add_mul _ 1] at this
      omega
    unfold hvNeonF
    dsimp only
    split_ifs
    · exact quadSum_congr hn hs (fun _ _ => rfl)
    · exact chain_congr hs (fun _ _ => rfl)
    · exact chain_congr hs (fun _ _ => rfl)
    · exact floatVal_congr hs (fun _ _ => rfl)

/-- Every accepted resize that can be read in eights, as a function of the source picture. -/
theorem f32Neon_raw {W N : ℕ} {L : Lib} {r : ResamplingFunction} {store into : Image A}
    (h : AcceptedF W N r store into) (h8 : NeonSafe N store into) (o : VecOps A) :
    ∃ vf hf out, tableOf L r store.height into.height = some vf ∧ tableOf L r store.width into.width = some hf ∧
      ValidTable vf store.height into.height ∧ ValidTable hf store.width into.width ∧
      genericResize W N (formatF32Neon o N) L r store into = some (.ok (), out) ∧
      SameShape out into ∧ PaddingKept N into out ∧
      ∀ y x c, y < into.height → x < into.width → c < N →
        sample out.buffer (into.strideOf N) N y x c = some (sepFun N store.width store.height
          into.width into.height (vvNeonF o vf) (hvNeonF o N hf into.height)
          (rowPos o.zero store.buffer (store.strideOf N)) y x c) := by
  have hb : AcceptedBy W N (formatF32Neon o N) (fun _ => True) (fun _ _ => True) L r store into :=
    ⟨h.channels, h.checked, h.filter, h.sizes, h.small, h.area, h.fits, fun _ _ => trivial,
      ⟨fun _ _ _ => trivial, fun _ _ _ => trivial⟩⟩
  obtain ⟨vf, hf, out, h1, h2, h3, h4, _, _, h5⟩ :=
    resize_funS (passFun_f32Neon o h.channels into.bitDepth) hb rfl h8
  exact ⟨vf, hf, out, h1, h2, h3, h4, h5⟩

/-! ### C166, C167: out-of-bounds access -/

theorem neonSafe_four (store into : Image A) : NeonSafe 4 store into := by
  intro _
  left
  omega

/-- **C166.** On AArch64, an accepted resize of f32 images that have four channels or keep their height — any
samples, any arithmetic (so also NaN and infinities) — returns normally, reads nothing outside the buffers, and
writes only pixels of the destination. -/
theorem C166_f32_neon_no_oob {W N : ℕ} {L : Lib} {r : ResamplingFunction} {store into : Image A}
    (h : AcceptedF W N r store into) (hc : N = 4 ∨ store.height = into.height) (o : VecOps A) :
    ∃ out, genericResize W N (formatF32Neon o N) L r store into = some (.ok (), out) ∧
      SameShape out into ∧ PaddingKept N into out := by
  have h8 : NeonSafe N store into := by
    rcases hc with rfl | hc
    · exact neonSafe_four _ _
    · exact fun hn => absurd hc hn
  obtain ⟨_, _, out, _, _, _, _, h1, h2, h3, _⟩ := f32Neon_raw (L := L) h h8 o
  exact ⟨out, h1, h2, h3⟩

example : ∃ out, genericResize (2 ^ 64) 4 (formatF32Neon ratOps 4) demoLib .bilinear (Demo.fx 4 6 5)
    (Demo.fz 4 2 3) = some (.ok (), out) ∧ PaddingKept 4 (Demo.fz 4 2 3) out := by
  obtain ⟨out, h1, _, h3⟩ := C166_f32_neon_no_oob (L := demoLib) Demo.fcall4 (Or.inl rfl) ratOps
  exact ⟨out, h1, h3⟩
example : ∃ out, genericResize (2 ^ 64) 3 (formatF32Neon ratOps 3) demoLib .bilinear (Demo.fx 3 6 5)
    (Demo.fz 3 2 5) = some (.ok (), out) ∧ PaddingKept 3 (Demo.fz 3 2 5) out := by
  obtain ⟨out, h1, _, h3⟩ := C166_f32_neon_no_oob (L := demoLib) Demo.fcall3r (Or.inr rfl) ratOps
  exact ⟨out, h1, h3⟩

/-- **C167 (partial).** The same for one to three channels when the height changes, if no row leaves a remainder
of five to seven samples (modulo eight) or every source row is followed by enough padding to read up to the next
multiple of eight. Without that the pass reads past the end of the source (`C167_violated`). -/
theorem C167_f32_neon_no_oob_partial {W N : ℕ} {L : Lib} {r : ResamplingFunction} {store into : Image A}
    (h : AcceptedF W N r store into)
    (h8 : (store.width * N) % 8 ≤ 4 ∨ (store.width * N + 7) / 8 * 8 ≤ store.strideOf N) (o : VecOps A) :
    ∃ out, genericResize W N (formatF32Neon o N) L r store into = some (.ok (), out) ∧
      SameShape out into ∧ PaddingKept N into out := by
  obtain ⟨_, _, out, _, _, _, _, h1, h2, h3, _⟩ := f32Neon_raw (L := L) h (fun _ => h8) o
  exact ⟨out, h1, h2, h3⟩

/-- 3 × 6 = 18 samples leave a remainder of two. -/
example : ∃ out, genericResize (2 ^ 64) 3 (formatF32Neon ratOps 3) demoLib .bilinear (Demo.fx 3 6 5)
    (Demo.fz 3 2 3) = some (.ok (), out) ∧ PaddingKept 3 (Demo.fz 3 2 3) out := by
  obtain ⟨out, h1, _, h3⟩ := C167_f32_neon_no_oob_partial (L := demoLib) Demo.fcall3 (by decide) ratOps
  exact ⟨out, h1, h3⟩

/-- **C167 (violated).** A 5 × 2 plane without padding, shrunk to 5 × 1: the call is accepted, and the vertical
pass reads three samples past the end of the source. Likewise a 7 × 2 plane, a 3 × 2 image of two channels
and a 2 × 2 image of three. -/
theorem C167_violated :
    AcceptedF (2 ^ 64) 1 .bilinear (Demo.fx 1 5 2) (Demo.fz 1 5 1) ∧
    genericResize (2 ^ 64) 1 (formatF32Neon ratOps 1) demoLib .bilinear (Demo.fx 1 5 2) (Demo.fz 1 5 1) = none ∧
    genericResize (2 ^ 64) 1 (formatF32Neon ratOps 1) demoLib .bilinear (Demo.fx 1 7 2) (Demo.fz 1 7 1) = none ∧
    genericResize (2 ^ 64) 2 (formatF32Neon ratOps 2) demoLib .bilinear (Demo.fx 2 3 2) (Demo.fz 2 3 1) = none ∧
    genericResize (2 ^ 64) 3 (formatF32Neon ratOps 3) demoLib .bilinear (Demo.fx 3 2 2) (Demo.fz 3 2 1) = none := by
  refine ⟨by constructor <;> decide +kernel, ?_⟩
  decide +kernel

/-! ### C168: the same bits as the portable code -/

/-- Two resizes give the same image if their pixel formulas agree. -/
theorem f32Neon_same {W N : ℕ} {L : Lib} {r : ResamplingFunction} {store into : Image A}
    (h : AcceptedF W N r store into) (h8 : NeonSafe N store into) (o : VecOps A) (cpu : Cpu) (fma fused : Bool)
    (hv : ∀ vf y q P, store.height ≠ into.height → ValidTable vf store.height into.height → y < into.height →
      vvNeonF o vf y q P = vvF32 cpu fma fused o vf y q P)
    (hh : ∀ hf y x c p, store.width ≠ into.width →
      ValidTable hf store.width into.width → x < into.width → y < into.height → c < N →
      hvNeonF o N hf into.height y x c p = hvF32 cpu fma fused o N hf into.height y x c p) :
    genericResize W N (formatF32Neon o N) L r store into =
      genericResize W N (formatF32X86 cpu fma fused o N) L r store into := by
  obtain ⟨vf, hf, out, ev, eh, Tv, Th, o1, o2, o3, o4⟩ := f32Neon_raw (L := L) h h8 o
  obtain ⟨vf', hf', out', ev', eh', _, _, o1', o2', o3', o4'⟩ := f32X86_raw (L := L) h cpu fma fused o
  rw [ev] at ev'
  rw [eh] at eh'
  obtain rfl := Option.some.inj ev'
  obtain rfl := Option.some.inj eh'
  rw [o1, o1', image_ext o2 o2' o3 o3' ?_]
  intro y x c hy hx hc
  rw [o4 y x c hy hx hc, o4' y x c hy hx hc]
  congr 1
  unfold sepFun
  dsimp only
  by_cases e1 : store.width = into.width
  · have e2 : store.height ≠ into.height := by have := h.sizes; tauto
    rw [if_pos e1, if_pos e1, if_neg e2, if_neg e2]
    exact hv _ _ _ _ e2 Tv hy
  · rw [if_neg e1, if_neg e1, hh _ _ _ _ _ e1 Th hx hy hc]
    congr 1
    funext q
    by_cases e2 : store.height = into.height
    · rw [if_pos e2, if_pos e2]
    · rw [if_neg e2, if_neg e2]
      exact hv _ _ _ _ e2 Tv hy

/-- The scalar model of x86 with fused multiply-add. -/
theorem f32Neon_scalar {W N : ℕ} {L : Lib} {r : ResamplingFunction} {store into : Image ℚ}
    (h : AcceptedF W N r store into) (h8 : NeonSafe N store into) (hN : N ≠ 1 ∨ store.width = into.width) :
    genericResize W N (formatF32Neon ratOps N) L r store into =
      genericResize W N (formatF32X86 ⟨false, false⟩ false true ratOps N) L r store into := by
  apply f32Neon_same h h8
  · intro vf y q P _ Tv hy
    rw [vvF32_left _ _ _ _ _ _ _ (Tv.size_pos y hy)]
    exact chain_leftF true (Tv.size_pos y hy)
  · intro hf y x c p hne Th hx _ _
    have hN : N ≠ 1 := by tauto
    have hN' : N = 2 ∨ N = 3 ∨ N = 4 ∧ (Cpu.mk false false).avx2 = false := by
      have := h.channels
      simp only [and_true]
      omega
    rw [hvF32_left _ _ _ hN' _ _ _ _ _ _ (Th.size_pos x hx)]
    have hFu : hFused ⟨false, false⟩ false true N = true := by simp [hFused]
    rw [hFu]
    unfold hvNeonF
    rw [if_neg hN]
    split_ifs
    · exact chain_leftF true (Th.size_pos x hx)
    · exact chain_leftF true (Th.size_pos x hx)
    · exact scalar_leftF true (Th.size_pos x hx)

/-- **C168.** On AArch64, a resize of finite f32 images with two, three or four channels (and one channel when
the width is kept) that stays in bounds gives exactly the image of the portable code with fused multiply-add. -/
theorem C168_f32_neon_portable {W N : ℕ} {L : Lib} {r : ResamplingFunction} {store into : Image ℚ}
    (h : AcceptedF W N r store into) (h8 : NeonSafe N store into) (hN : N ≠ 1 ∨ store.width = into.width) :
    genericResize W N (formatF32Neon ratOps N) L r store into =
      genericResize W N (formatFloat (f32Ops F32.rnd true) 0 N) L r store into := by
  rw [f32Neon_scalar h h8 hN, formatF32X86_none]

/-- For four channels no condition is left. -/
theorem C168_f32_neon_rgba {W : ℕ} {L : Lib} {r : ResamplingFunction} {store into : Image ℚ}
    (h : AcceptedF W 4 r store into) :
    genericResize W 4 (formatF32Neon ratOps 4) L r store into =
      genericResize W 4 (formatFloat (f32Ops F32.rnd true) 0 4) L r store into :=
  C168_f32_neon_portable h (neonSafe_four _ _) (by norm_num)

example : genericResize (2 ^ 64) 4 (formatF32Neon ratOps 4) demoLib .bilinear (Demo.fx 4 6 5) (Demo.fz 4 2 3) =
    genericResize (2 ^ 64) 4 (formatFloat (f32Ops F32.rnd true) 0 4) demoLib .bilinear (Demo.fx 4 6 5) (Demo.fz 4 2 3) :=
  C168_f32_neon_rgba Demo.fcall4
example : genericResize (2 ^ 64) 3 (formatF32Neon ratOps 3) demoLib .bilinear (Demo.fx 3 6 5) (Demo.fz 3 2 3) =
    genericResize (2 ^ 64) 3 (formatFloat (f32Ops F32.rnd true) 0 3) demoLib .bilinear (Demo.fx 3 6 5) (Demo.fz 3 2 3) :=
  C168_f32_neon_portable Demo.fcall3 (fun _ => Or.inl (by decide)) (by norm_num)

/-! ### C169: the same bits as x86 with AVX2 and FMA -/

/-- **C169.** One to three channels: a resize on AArch64 that stays in bounds gives exactly the image of an x86
CPU with AVX2 and FMA, for any samples and arithmetic (NaN payloads are those of the arithmetic given). -/
theorem C169_f32_neon_x86 {W N : ℕ} {L : Lib} {r : ResamplingFunction} {store into : Image A}
    (h : AcceptedF W N r store into) (h8 : NeonSafe N store into) (hN : N ≤ 3) (o : VecOps A) :
    genericResize W N (formatF32Neon o N) L r store into =
      genericResize W N (formatF32X86 ⟨true, true⟩ true true o N) L r store into := by
  apply f32Neon_same h h8
  · intro vf y q P _ _ _
    rfl
  · intro hf y x c p _ _ _ _ _
    unfold hvNeonF hvF32
    have n4 : N ≠ 4 := by omega
    simp [n4]

example : genericResize (2 ^ 64) 1 (formatF32Neon ratOps 1) demoLib .bilinear (Demo.fx 1 9 5) (Demo.fz 1 2 5) =
    genericResize (2 ^ 64) 1 (formatF32X86 ⟨true, true⟩ true true ratOps 1) demoLib .bilinear (Demo.fx 1 9 5) (Demo.fz 1 2 5) :=
  C169_f32_neon_x86 Demo.fcall1 (fun _ => Or.inl (by decide)) (by norm_num) ratOps

/-! ### C170, C171: accuracy -/

/-- **C170 (height).** Any number of channels, width kept: every sample of a resize that stays in bounds is
within the binary32 error bound of the exact weighted sum of its column. -/
theorem C170_f32_neon_accuracy_vertical {W N : ℕ} {L : Lib} {r : ResamplingFunction} {store into : Image ℚ}
    (h : AcceptedF W N r store into) (h8 : NeonSafe N store into) (hw : store.width = into.width) :
    ∃ vf out, tableOf L r store.height into.height = some vf ∧
      genericResize W N (formatF32Neon ratOps N) L r store into = some (.ok (), out) ∧
      ∀ y x c, y < into.height → x < into.width → c < N → ∃ v, sample out.buffer (into.strideOf N) N y x c = some v ∧
        |v - dotSum (vf.bound y).size (fun k => pxD 0 store.buffer (store.strideOf N) N ((vf.bound y).start + k) x c)
            (fun k => vf.weight y k)| ≤
          floatErr (vf.bound y).size (termSize (vf.bound y).size
            (fun k => pxD 0 store.buffer (store.strideOf N) N ((vf.bound y).start + k) x c) (fun k => vf.weight y k)) := by
  rw [f32Neon_scalar h h8 (Or.inr hw)]
  exact C90_f32_accuracy_vertical h hw _ _ _

/-- **C170 (width).** Two, three and four channels, height kept. -/
theorem C170_f32_neon_accuracy_horizontal {W N : ℕ} {L : Lib} {r : ResamplingFunction} {store into : Image ℚ}
    (h : AcceptedF W N r store into) (hN : N ≠ 1) (hh : store.height = into.height) :
    ∃ hf out, tableOf L r store.width into.width = some hf ∧
      genericResize W N (formatF32Neon ratOps N) L r store into = some (.ok (), out) ∧
      ∀ y x c, y < into.height → x < into.width → c < N → ∃ v, sample out.buffer (into.strideOf N) N y x c = some v ∧
        |v - dotSum (hf.bound x).size (fun k => pxD 0 store.buffer (store.strideOf N) N y ((hf.bound x).start + k) c)
            (fun k => hf.weight x k)| ≤
          floatErr (hf.bound x).size (termSize (hf.bound x).size
            (fun k => pxD 0 store.buffer (store.strideOf N) N y ((hf.bound x).start + k) c) (fun k => hf.weight x k)) := by
  rw [f32Neon_scalar h (fun hn => absurd hh hn) (Or.inl hN)]
  exact C90_f32_accuracy_horizontal h hN hh _ _ _

/-- **C170 (both).** Two, three and four channels, both dimensions change, source samples of magnitude at
most `M`. -/
theorem C170_f32_neon_accuracy_both {W N : ℕ} {L : Lib} {r : ResamplingFunction} {store into : Image ℚ}
    (h : AcceptedF W N r store into) (h8 : NeonSafe N store into) (hN : N ≠ 1)
    (hne : store.width ≠ into.width ∧ store.height ≠ into.height) {M : ℚ} (hM : ∀ v ∈ store.buffer, |v| ≤ M) :
    ∃ vf hf out, tableOf L r store.height into.height = some vf ∧ tableOf L r store.width into.width = some hf ∧
      genericResize W N (formatF32Neon ratOps N) L r store into = some (.ok (), out) ∧
      ∀ y x c, y < into.height → x < into.width → c < N →
        let Sv := ∑ j ∈ range (vf.bound y).size, |vf.weight y j|
        let Sh := ∑ k ∈ range (hf.bound x).size, |hf.weight x k|
        let e := floatErr (vf.bound y).size (Sv * M)
        ∃ v, sample out.buffer (into.strideOf N) N y x c = some v ∧
        |v - dotSum (hf.bound x).size (fun k => dotSum (vf.bound y).size
              (fun j => pxD 0 store.buffer (store.strideOf N) N ((vf.bound y).start + j) ((hf.bound x).start + k) c)
              (fun j => vf.weight y j)) (fun k => hf.weight x k)| ≤
          floatErr (hf.bound x).size (Sh * (Sv * M + e)) + Sh * e := by
  rw [f32Neon_scalar h h8 (Or.inl hN)]
  exact C90_f32_accuracy_both h hN hne _ _ _ hM

example : ∃ v out, genericResize (2 ^ 64) 4 (formatF32Neon ratOps 4) demoLib .bilinear (Demo.fx 4 6 5)
    (Demo.fz 4 2 3) = some (.ok (), out) ∧ sample out.buffer 10 4 2 1 0 = some v := by
  obtain ⟨_, _, out, _, _, h1, h2⟩ := C170_f32_neon_accuracy_both (L := demoLib) Demo.fcall4 (neonSafe_four _ _) (by norm_num)
    (by decide) (M := 1000) (by decide +kernel)
  obtain ⟨v, hv, _⟩ := h2 2 1 0 (by decide) (by decide) (by decide)
  exact ⟨v, out, h1, hv⟩
example : ∃ v out, genericResize (2 ^ 64) 3 (formatF32Neon ratOps 3) demoLib .bilinear (Demo.fx 3 6 5)
    (Demo.fz 3 2 5) = some (.ok (), out) ∧ sample out.buffer 8 3 2 1 0 = some v := by
  obtain ⟨_, out, _, h1, h2⟩ := C170_f32_neon_accuracy_horizontal (L := demoLib) Demo.fcall3r (by norm_num) (by decide)
  obtain ⟨v, hv, _⟩ := h2 2 1 0 (by decide) (by decide) (by decide)
  exact ⟨v, out, h1, hv⟩
example : ∃ v out, genericResize (2 ^ 64) 1 (formatF32Neon ratOps 1) demoLib .bilinear (Demo.fx 1 9 5)
    (Demo.fz 1 9 3) = some (.ok (), out) ∧ sample out.buffer 11 1 2 1 0 = some v := by
  obtain ⟨_, out, _, h1, h2⟩ := C170_f32_neon_accuracy_vertical (L := demoLib) Demo.fcallV (fun _ => Or.inl (by decide)) (by decide)
  obtain ⟨v, hv, _⟩ := h2 2 1 0 (by decide) (by decide) (by decide)
  exact ⟨v, out, h1, hv⟩

/-- **C171 (partial).** One channel, height kept: the bound holds in every row of a group of four and wherever
the window has at most 16 taps; missing are the last `height % 4` rows with larger windows, where some taps are
added twice (`C171_violated`). -/
theorem C171_f32_neon_plane_partial {W : ℕ} {L : Lib} {r : ResamplingFunction} {store into : Image ℚ}
    (h : AcceptedF W 1 r store into) (hh : store.height = into.height) :
    ∃ hf out, tableOf L r store.width into.width = some hf ∧
      genericResize W 1 (formatF32Neon ratOps 1) L r store into = some (.ok (), out) ∧
      ∀ y x, y < into.height → x < into.width → y < into.height - into.height % 4 ∨ (hf.bound x).size ≤ 16 →
        ∃ v, sample out.buffer (into.strideOf 1) 1 y x 0 = some v ∧
        |v - dotSum (hf.bound x).size (fun k => pxD 0 store.buffer (store.strideOf 1) 1 y ((hf.bound x).start + k) 0)
            (fun k => hf.weight x k)| ≤
          floatErr (hf.bound x).size (termSize (hf.bound x).size
            (fun k => pxD 0 store.buffer (store.strideOf 1) 1 y ((hf.bound x).start + k) 0) (fun k => hf.weight x k)) := by
  rw [C169_f32_neon_x86 h (fun hn => absurd hh hn) (by norm_num)]
  exact C91_f32_accuracy_plane_partial h hh _ _ _

example : ∃ v out, genericResize (2 ^ 64) 1 (formatF32Neon ratOps 1) demoLib .bilinear (Demo.fx 1 9 5)
    (Demo.fz 1 2 5) = some (.ok (), out) ∧ sample out.buffer 4 1 3 1 0 = some v := by
  obtain ⟨_, out, _, h1, h2⟩ := C171_f32_neon_plane_partial (L := demoLib) Demo.fcall1 (by decide)
  obtain ⟨v, hv, _⟩ := h2 3 1 (by decide) (by decide) (Or.inl (by decide))
  exact ⟨v, out, h1, hv⟩

/-- **C171 (violated).** Shrinking a 17 × 5 plane of ones to 1 × 5 on AArch64: the last row is half as bright
again as the other four. -/
theorem C171_violated :
    genericResize (2 ^ 64) 1 (formatF32Neon ratOps 1) demoLib .bilinear
      ⟨List.replicate 85 1, 1, 17, 5, 17, 0⟩ ⟨[0, 0, 0, 0, 0], 1, 1, 5, 1, 0⟩ =
      some (.ok (), ⟨[4194305 / 4194304, 4194305 / 4194304, 4194305 / 4194304, 4194305 / 4194304, 6281793 / 4194304],
        1, 1, 5, 1, 0⟩) := by
  decide +kernel

/-! ### C172, C173: equal rows -/

theorem equal_rowsNeon {W N : ℕ} {L : Lib} {r : ResamplingFunction} {store into : Image A}
    (h : AcceptedF W N r store into) (hh : store.height = into.height) (o : VecOps A)
    {y y' : ℕ} (hy : y < into.height) (hy' : y' < into.height)
    (hrow : ∀ x c, x < store.width → c < N →
      sample store.buffer (store.strideOf N) N y x c = sample store.buffer (store.strideOf N) N y' x c)
    (hok : ∀ hf x c p, hvNeonF o N hf into.height y x c p = hvNeonF o N hf into.height y' x c p) :
    ∃ out, genericResize W N (formatF32Neon o N) L r store into = some (.ok (), out) ∧
      ∀ x c, x < into.width → c < N →
        sample out.buffer (into.strideOf N) N y x c = sample out.buffer (into.strideOf N) N y' x c := by
  obtain ⟨vf, hf, out, _, eh, _, Th, o1, _, _, o4⟩ := f32Neon_raw (L := L) h (fun hn => absurd hh hn) o
  have hne : store.width ≠ into.width := by have := h.sizes; tauto
  have hN := h.channels.1
  refine ⟨out, o1, fun x c hx hc => ?_⟩
  rw [o4 y x c hy hx hc, o4 y' x c hy' hx hc]
  simp only [sepFun, if_pos hh, if_neg hne]
  rw [hok hf x c _]
  congr 1
  apply (passFun_f32Neon o h.channels 0).cong_h _ _ _ _ _ _ _ _ _ Th trivial hx hc
  intro q hq
  have hx' : q / N < store.width := Nat.div_lt_of_lt_mul (by rw [Nat.mul_comm]; exact hq)
  have hc' : q % N < N := Nat.mod_lt _ hN
  have hq' : q / N * N + q % N = q := by rw [Nat.mul_comm]; exact Nat.div_add_mod q N
  rw [← hq', rowPos_pxD, rowPos_pxD]
  unfold pxD
  rw [hrow _ _ hx' hc']

/-- **C172.** Images of two, three or four channels: when a resize keeps the height, equal source rows become
equal destination rows — wherever the rows are, and for any samples and arithmetic. -/
theorem C172_f32_neon_equal_rows {W N : ℕ} {L : Lib} {r : ResamplingFunction} {store into : Image A}
    (h : AcceptedF W N r store into) (hh : store.height = into.height) (o : VecOps A) (hN : N ≠ 1)
    {y y' : ℕ} (hy : y < into.height) (hy' : y' < into.height)
    (hrow : ∀ x c, x < store.width → c < N →
      sample store.buffer (store.strideOf N) N y x c = sample store.buffer (store.strideOf N) N y' x c) :
    ∃ out, genericResize W N (formatF32Neon o N) L r store into = some (.ok (), out) ∧
      ∀ x c, x < into.width → c < N →
        sample out.buffer (into.strideOf N) N y x c = sample out.buffer (into.strideOf N) N y' x c := by
  apply equal_rowsNeon h hh o hy hy' hrow
  intro hf x c p
  unfold hvNeonF
  simp [hN]

example : ∃ out, genericResize (2 ^ 64) 3 (formatF32Neon ratOps 3) demoLib .bilinear (Demo.fx 3 6 5)
    (Demo.fz 3 2 5) = some (.ok (), out) ∧
    ∀ x c, x < 2 → c < 3 → sample out.buffer 8 3 0 x c = sample out.buffer 8 3 4 x c :=
  C172_f32_neon_equal_rows (L := demoLib) Demo.fcall3r (by decide) ratOps (by decide) (y := 0) (y' := 4)
    (by decide) (by decide) (by
      have key : ∀ x < 6, ∀ c < 3, sample (Demo.fx 3 6 5).buffer ((Demo.fx 3 6 5).strideOf 3) 3 0 x c =
        sample (Demo.fx 3 6 5).buffer ((Demo.fx 3 6 5).strideOf 3) 3 4 x c := by decide +kernel
      exact fun x c hx hc => key x hx c hc)

/-- **C173 (partial).** One channel: equal source rows become equal destination rows when both are in groups of
four or both are not. In general they need not (`C171_violated`). -/
theorem C173_f32_neon_equal_rows_partial {W : ℕ} {L : Lib} {r : ResamplingFunction} {store into : Image A}
    (h : AcceptedF W 1 r store into) (hh : store.height = into.height) (o : VecOps A)
    {y y' : ℕ} (hy : y < into.height) (hy' : y' < into.height)
    (hg : y < into.height - into.height % 4 ↔ y' < into.height - into.height % 4)
    (hrow : ∀ x c, x < store.width → c < 1 →
      sample store.buffer (store.strideOf 1) 1 y x c = sample store.buffer (store.strideOf 1) 1 y' x c) :
    ∃ out, genericResize W 1 (formatF32Neon o 1) L r store into = some (.ok (), out) ∧
      ∀ x c, x < into.width → c < 1 →
        sample out.buffer (into.strideOf 1) 1 y x c = sample out.buffer (into.strideOf 1) 1 y' x c := by
  apply equal_rowsNeon h hh o hy hy' hrow
  intro hf x c p
  have e : (¬ y < into.height / 4 * 4) = (¬ y' < into.height / 4 * 4) := by
    apply propext
    rw [show into.height / 4 * 4 = into.height - into.height % 4 by omega, hg]
  unfold hvNeonF
  simp only [e]

example : ∃ out, genericResize (2 ^ 64) 1 (formatF32Neon ratOps 1) demoLib .bilinear (Demo.fx 1 9 5)
    (Demo.fz 1 2 5) = some (.ok (), out) ∧
    ∀ x c, x < 2 → c < 1 → sample out.buffer 4 1 0 x c = sample out.buffer 4 1 3 x c :=
  C173_f32_neon_equal_rows_partial (L := demoLib) Demo.fcall1 (by decide) ratOps (y := 0) (y' := 3)
    (by decide) (by decide) (by decide) (by
      have key : ∀ x < 9, ∀ c < 1, sample (Demo.fx 1 9 5).buffer ((Demo.fx 1 9 5).strideOf 1) 1 0 x c =
        sample (Demo.fx 1 9 5).buffer ((Demo.fx 1 9 5).strideOf 1) 1 3 x c := by decide +kernel
      exact fun x c hx hc => key x hx c hc)

/-! ### C174: locality -/

/-- **C174.** For any arithmetic, a destination sample of a resize that stays in bounds depends only on the
source samples of its channel inside its windows: two sources of the same size that agree there give the same
value — whatever the other samples and the padding are, NaN and infinities included. -/
theorem C174_f32_neon_locality {W N : ℕ} {L : Lib} {r : ResamplingFunction} {store store' into into' : Image A}
    (h : AcceptedF W N r store into) (h' : AcceptedF W N r store' into')
    (h8 : NeonSafe N store into) (h8' : NeonSafe N store' into') (o : VecOps A)
    (hsz : store'.width = store.width ∧ store'.height = store.height)
    (hdz : into'.width = into.width ∧ into'.height = into.height)
    {y x c : ℕ} (hy : y < into.height) (hx : x < into.width) (hc : c < N)
    (hp : ∀ vf hf j k, tableOf L r store.height into.height = some vf → tableOf L r store.width into.width = some hf →
      (if store.height = into.height then j = y else (vf.bound y).start ≤ j ∧ j < (vf.bound y).start + (vf.bound y).size) →
      (if store.width = into.width then k = x else (hf.bound x).start ≤ k ∧ k < (hf.bound x).start + (hf.bound x).size) →
      sample store.buffer (store.strideOf N) N j k c = sample store'.buffer (store'.strideOf N) N j k c) :
    ∃ out out', genericResize W N (formatF32Neon o N) L r store into = some (.ok (), out) ∧
      genericResize W N (formatF32Neon o N) L r store' into' = some (.ok (), out') ∧
      sample out.buffer (into.strideOf N) N y x c = sample out'.buffer (into'.strideOf N) N y x c := by
  obtain ⟨vf, hf, out, ev, eh, Tv, Th, o1, _, _, o4⟩ := f32Neon_raw (L := L) h h8 o
  obtain ⟨vf', hf', out', ev', eh', _, _, o1', _, _, o4'⟩ := f32Neon_raw (L := L) h' h8' o
  rw [hsz.2, hdz.2, ev] at ev'
  rw [hsz.1, hdz.1, eh] at eh'
  obtain rfl := Option.some.inj ev'
  obtain rfl := Option.some.inj eh'
  refine ⟨out, out', o1, o1', ?_⟩
  rw [o4 y x c hy hx hc, o4' y x c (by omega) (by omega) hc]
  congr 1
  simp only [hsz.1, hsz.2, hdz.1, hdz.2]
  have hcol : ∀ k, (if store.width = into.width then k = x else (hf.bound x).start ≤ k ∧ k < (hf.bound x).start + (hf.bound x).size) →
      (if store.height = into.height then rowPos o.zero store.buffer (store.strideOf N) y (k * N + c)
        else vvNeonF o vf y (k * N + c) (rowPos o.zero store.buffer (store.strideOf N))) =
      (if store.height = into.height then rowPos o.zero store'.buffer (store'.strideOf N) y (k * N + c)
        else vvNeonF o vf y (k * N + c) (rowPos o.zero store'.buffer (store'.strideOf N))) := by
    intro k hk
    by_cases hh : store.height = into.height
    · rw [if_pos hh, if_pos hh, rowPos_pxD, rowPos_pxD]
      unfold pxD
      rw [hp vf hf y k ev eh (by rw [if_pos hh]) hk]
    · rw [if_neg hh, if_neg hh]
      unfold vvNeonF
      refine chain_congr (fun j hj => ?_) (fun _ _ => rfl)
      rw [rowPos_pxD, rowPos_pxD]
      unfold pxD
      rw [hp vf hf _ k ev eh (by rw [if_neg hh]; omega) hk]
  unfold sepFun
  dsimp only
  by_cases hw : store.width = into.width
  · rw [if_pos hw, if_pos hw]
    exact hcol x (by rw [if_pos hw])
  · rw [if_neg hw, if_neg hw]
    have hn := Th.size_pos x hx
    have e : ∀ k, k < (hf.bound x).size → _ := fun k hk => hcol ((hf.bound x).start + k) (by rw [if_neg hw]; omega)
    unfold hvNeonF
    dsimp only
    split_ifs
    all_goals first
      | exact quadSum_congr hn (fun k hk => by simpa [*] using e k hk) (fun _ _ => rfl)
      | exact chain_congr (fun k hk => by simpa [*] using e k hk) (fun _ _ => rfl)
      | exact floatVal_congr (fun k hk => by simpa [*] using e k hk) (fun _ _ => rfl)

example : ∃ out out', genericResize (2 ^ 64) 4 (formatF32Neon ratOps 4) demoLib .bilinear (Demo.fx 4 6 5)
      (Demo.fz 4 2 3) = some (.ok (), out) ∧
    genericResize (2 ^ 64) 4 (formatF32Neon ratOps 4) demoLib .bilinear (Demo.fx' 4 6 5)
      (Demo.fz 4 2 3) = some (.ok (), out') ∧
    sample out.buffer 10 4 1 1 0 = sample out'.buffer 10 4 1 1 0 := by
  refine C174_f32_neon_locality (L := demoLib) Demo.fcall4 Demo.fcall4' (neonSafe_four _ _) (neonSafe_four _ _) ratOps
    (by decide) (by decide) (by decide) (by decide) (by decide) ?_
  intro vf hf j k ev eh hj hk
  obtain ⟨vf', hf', _, ev', eh', Tv, Th, _⟩ := f32X86_raw (L := demoLib) Demo.fcall4 ⟨true, true⟩ true true ratOps
  rw [ev] at ev'
  rw [eh] at eh'
  obtain rfl := Option.some.inj ev'
  obtain rfl := Option.some.inj eh'
  rw [if_neg (by decide)] at hj hk
  have h1 : j < 5 := by have := Tv.inside 1 (by decide); exact lt_of_lt_of_le hj.2 this
  have h2 : k < 6 := by have := Th.inside 1 (by decide); exact lt_of_lt_of_le hk.2 this
  have key : ∀ j < 5, ∀ k < 6, sample (Demo.fx 4 6 5).buffer ((Demo.fx 4 6 5).strideOf 4) 4 j k 0 =
      sample (Demo.fx' 4 6 5).buffer ((Demo.fx' 4 6 5).strideOf 4) 4 j k 0 := by decide +kernel
  exact key j h1 k h2

end PicScale
