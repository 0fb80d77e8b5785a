import Verif.Props.X86U16
import Verif.Lemmas.NeonU16Pass

/-!
Property theorems about resizes of u16 images on AArch64 with NEON: C178–C188.
-/

namespace PicScale

open Spec Finset

theorem AcceptedCall16.byNeon {W N : ℕ} {r : ResamplingFunction} {store into : Image ℕ} (h : AcceptedCall16 W N r store into)
    (half : Bool) (L : Lib) :
    AcceptedBy W N (formatU16Neon half N) (fun _ => True) (fun fw out => PlainShape fw out) L r store into :=
  ⟨h.channels, h.checked, h.filter, h.sizes, h.small, h.area, h.fits, fun _ _ => trivial,
    ⟨fun _ _ s => s, fun _ _ s => s⟩⟩

/-- Every accepted resize, as a function of the source picture. -/
theorem u16Neon_raw {W N : ℕ} {L : Lib} {r : ResamplingFunction} {store into : Image ℕ}
    (h : AcceptedCall16 W N r store into) (half : Bool) :
    ∃ vf hf out, tableOf L r store.height into.height = some vf ∧ tableOf L r store.width into.width = some hf ∧
      ValidTable vf store.height into.height ∧ ValidTable hf store.width into.width ∧
      PlainShape vf into.height ∧ PlainShape hf into.width ∧
      genericResize W N (formatU16Neon half N) L r store into = some (.ok (), out) ∧
      SameShape out into ∧ PaddingKept N into out ∧
      ∀ y x c, y < into.height → x < into.width → c < N →
        sample out.buffer (into.strideOf N) N y x c = some (sepFun N store.width store.height
          into.width into.height (vvNeon16 half N into.bitDepth vf store.width)
          (hvNeon16 N into.bitDepth hf into.height)
          (rowPos 0 store.buffer (store.strideOf N)) y x c) :=
  resize_fun (passFun_u16Neon half h.channels into.bitDepth) (h.byNeon half L) rfl

/-- Depth of an accepted call. -/
theorem AcceptedCall16.depth_le {W N : ℕ} {r : ResamplingFunction} {store into : Image ℕ}
    (h : AcceptedCall16 W N r store into) : into.bitDepth ≤ 16 := ((checkResize_ok.1 h.checked).2.2.2.2.2 rfl).2

theorem pos_lt {N w x c : ℕ} (hx : x < w) (hc : c < N) : x * N + c < w * N := by
  have := Nat.mul_le_mul_right N (show x + 1 ≤ w from hx)
  rw [Nat.add_mul] at this; omega

/-! ### C178: no out-of-bounds access -/

/-- **C178.** On AArch64 with NEON, with or without half precision, an accepted resize of u16 images — any
depth, any number of channels, any samples — returns normally, reads nothing outside the buffers, and writes
only pixels of the destination. -/
theorem C178_u16_neon_no_oob {W N : ℕ} {L : Lib} {r : ResamplingFunction} {store into : Image ℕ}
    (h : AcceptedCall16 W N r store into) (half : Bool) :
    ∃ out, genericResize W N (formatU16Neon half N) L r store into = some (.ok (), out) ∧
      SameShape out into ∧ PaddingKept N into out := by
  obtain ⟨_, _, out, _, _, _, _, _, _, h1, h2, h3, _⟩ := u16Neon_raw (L := L) h half
  exact ⟨out, h1, h2, h3⟩

example : ∃ out, genericResize (2 ^ 64) 4 (formatU16Neon true 4) demoLib .bilinear (Demo.usrc 10)
    (Demo.udst 10) = some (.ok (), out) ∧ PaddingKept 4 (Demo.udst 10) out := by
  obtain ⟨out, h1, _, h3⟩ := C178_u16_neon_no_oob (L := demoLib) Demo.ucall10 true
  exact ⟨out, h1, h3⟩

/-! ### C179: range -/

/-- **C179.** On NEON every sample a resize writes is within the depth of the destination, whatever the depth
and whatever the source samples — unlike x86 (C85). -/
theorem C179_u16_neon_range {W N : ℕ} {L : Lib} {r : ResamplingFunction} {store into : Image ℕ}
    (h : AcceptedCall16 W N r store into) (half : Bool) :
    ∃ out, genericResize W N (formatU16Neon half N) L r store into = some (.ok (), out) ∧
      ∀ y x c, y < into.height → x < into.width → c < N →
        ∃ v, sample out.buffer (into.strideOf N) N y x c = some v ∧ v ≤ 2 ^ into.bitDepth - 1 := by
  obtain ⟨vf, hf, out, _, _, _, _, _, _, o1, _, _, o4⟩ := u16Neon_raw (L := L) h half
  refine ⟨out, o1, fun y x c hy hx hc => ⟨_, o4 y x c hy hx hc, ?_⟩⟩
  unfold sepFun
  dsimp only
  split_ifs with h1 h2
  · have := h.sizes; tauto
  · exact vvNeon16_le _ h.depth_le _ _ _ _ _
  all_goals exact hvNeon16_le _ _ _ _ _ _ _ _

/-- Non-vacuous: samples of 32767 in a 10-bit image. -/
example : genericResize (2 ^ 64) 1 (formatU16Neon false 1) demoLib .bilinear
      ⟨List.replicate 20 32767, 1, 4, 5, 4, 10⟩ ⟨List.replicate 4 0, 1, 4, 1, 4, 10⟩ =
      some (.ok (), ⟨List.replicate 4 1023, 1, 4, 1, 4, 10⟩) ∧
    AcceptedCall16 (2 ^ 64) 1 .bilinear ⟨List.replicate 20 32767, 1, 4, 5, 4, 10⟩ ⟨List.replicate 4 0, 1, 4, 1, 4, 10⟩ :=
  ⟨by decide +kernel, by constructor <;> decide +kernel⟩

/-! ### the values up to 12 bits, fixed point -/

/-- Vertical pass value up to 12 bits. -/
def vDown (hi width : ℕ) (q : FilterWeights ℤ) (y p : ℕ) (P : ℕ → ℕ → ℕ) : ℕ :=
  fixedHalfDown hi (q.bound y).size (fun k => q.weight y k) (fun k => P ((q.bound y).start + k) (readColumn 16 width p))

/-- Horizontal pass value up to 12 bits. -/
def hDown (N hi : ℕ) (q : FilterWeights ℤ) (x c : ℕ) (p : ℕ → ℕ) : ℕ :=
  (if N = 4 then fixedHalfDown else fixedRound) hi (q.bound x).size (fun k => q.weight x k)
    (fun k => p (((q.bound x).start + k) * N + c))

/-- Every sample of a resize of up to 12 bits without half precision. -/
theorem u16Neon_values {W N : ℕ} {L : Lib} {r : ResamplingFunction} {store into : Image ℕ}
    (h : AcceptedLb W N L r store into) :
    ∃ qv qh out, IsTable L r store.height into.height qv ∧ IsTable L r store.width into.width qh ∧
      ValidTable qv store.height into.height ∧ ValidTable qh store.width into.width ∧
      genericResize W N (formatU16Neon false N) L r store into = some (.ok (), out) ∧
      SameShape out into ∧ PaddingKept N into out ∧
      ∀ y x c, y < into.height → x < into.width → c < N →
        sample out.buffer (into.strideOf N) N y x c = some (sepFun N store.width store.height
          into.width into.height (vDown (2 ^ into.bitDepth - 1) (store.width * N) qv)
          (fun _ => hDown N (2 ^ into.bitDepth - 1) qh)
          (rowPos 0 store.buffer (store.strideOf N)) y x c) := by
  obtain ⟨vf, hf, out, ev, eh, Tv, Th, Sv, Sh, o1, o2, o3, o4⟩ := u16Neon_raw (L := L) h.call false
  have nv := h.noOverflow.1 _ ⟨vf, ev, rfl⟩
  have nh := h.noOverflow.2 _ ⟨hf, eh, rfl⟩
  have hP := rowPos_le h.inRange (store.strideOf N)
  refine ⟨_, _, out, ⟨vf, ev, rfl⟩, ⟨hf, eh, rfl⟩, Sv.q_valid Tv, Sh.q_valid Th, o1, o2, o3, ?_⟩
  intro y x c hy hx hc
  rw [o4 y x c hy hx hc]
  congr 1
  have hv : ∀ q, vvNeon16 false N into.bitDepth vf store.width y q (rowPos 0 store.buffer (store.strideOf N)) =
      vDown (2 ^ into.bitDepth - 1) (store.width * N) (numericalApproximation F32.rnd vf) y q
        (rowPos 0 store.buffer (store.strideOf N)) := by
    intro q
    rw [vvNeon16_lb h.depth Tv Sv nv hy hP]
    rfl
  unfold sepFun
  simp only [hv]
  by_cases hw : store.width = into.width
  · rw [if_pos hw, if_pos hw]
  · rw [if_neg hw, if_neg hw, hvNeon16_lb h.depth Th Sh nh hx hc]
    · rfl
    · intro q
      split_ifs
      · exact hP _ _
      · exact fixedHalfDown_le _ _ _ _

/-! ### C180, C181: the horizontal pass -/

/-- **C180.** Up to 12 bits, a resize on NEON that keeps the height, with or without half precision: every
sample is the weighted sum of its row and channel, rounded to nearest and clamped; exact halves go down in RGBA
images and up in the others. -/
theorem C180_u16_neon_horizontal {W N : ℕ} {L : Lib} {r : ResamplingFunction} {store into : Image ℕ}
    (h : AcceptedLb W N L r store into) (hh : store.height = into.height) (half : Bool) :
    ∃ q out, IsTable L r store.width into.width q ∧
      genericResize W N (formatU16Neon half N) L r store into = some (.ok (), out) ∧
      ∀ y x c, y < into.height → x < into.width → c < N →
        sample out.buffer (into.strideOf N) N y x c = some
          ((if N = 4 then fixedHalfDown else fixedRound) (2 ^ into.bitDepth - 1) (q.bound x).size (fun k => q.weight x k)
            (fun k => pxD 0 store.buffer (store.strideOf N) N y ((q.bound x).start + k) c)) := by
  obtain ⟨vf, hf, out, ev, eh, Tv, Th, Sv, Sh, o1, _, _, o4⟩ := u16Neon_raw (L := L) h.call half
  have nh := h.noOverflow.2 _ ⟨hf, eh, rfl⟩
  have hP := rowPos_le h.inRange (store.strideOf N)
  have hne : store.width ≠ into.width := by have := h.call.sizes; tauto
  refine ⟨_, out, ⟨hf, eh, rfl⟩, o1, fun y x c hy hx hc => ?_⟩
  rw [o4 y x c hy hx hc]
  simp only [sepFun, if_pos hh, if_neg hne]
  rw [hvNeon16_lb h.depth Th Sh nh hx hc (fun q => hP _ _)]
  simp only [rowPos_pxD]
  rfl

/-- **C185.** Above 12 bits: A resize on NEON that keeps the height gives the same picture as the portable
code compiled with fused multiply-add, for every number of channels and any samples. -/
theorem C185_u16_neon_portable_deep {W N : ℕ} {L : Lib} {r : ResamplingFunction} {store into : Image ℕ}
    (h : AcceptedCall16 W N r store into) (h12 : 12 < into.bitDepth) (hh : store.height = into.height)
    (half : Bool) :
    ∃ out out', genericResize W N (formatU16Neon half N) L r store into = some (.ok (), out) ∧
      genericResize W N (formatU16X86 ⟨false, false⟩ false true N) L r store into = some (.ok (), out') ∧
      ∀ y x c, y < into.height → x < into.width → c < N →
        sample out.buffer (into.strideOf N) N y x c = sample out'.buffer (into.strideOf N) N y x c := by
  obtain ⟨vf, hf, out, _, eh, _, _, _, _, o1, _, _, o4⟩ := u16Neon_raw (L := L) h half
  obtain ⟨vf', hf', out', _, eh', _, _, _, _, o1', _, _, o4'⟩ := u16X86_raw (L := L) h ⟨false, false⟩ false true
  rw [eh] at eh'
  obtain rfl := Option.some.inj eh'
  have hne : store.width ≠ into.width := by have := h.sizes; tauto
  refine ⟨out, out', o1, o1', fun y x c hy hx hc => ?_⟩
  rw [o4 y x c hy hx hc, o4' y x c hy hx hc]
  simp [sepFun, if_pos hh, if_neg hne, hvNeon16, hvX86, if_pos h12]

/-- **C181.** Up to 12 bits: A resize on NEON that keeps the height gives the same picture as the portable
code if the image is not RGBA; in RGBA images a sample differs only where the exact value is a half, and then it
is one less. `C181_violated`: it does differ there. -/
theorem C181_u16_neon_portable_partial {W N : ℕ} {L : Lib} {r : ResamplingFunction} {store into : Image ℕ}
    (h : AcceptedLb W N L r store into) (hh : store.height = into.height) (half : Bool) (fma fused : Bool) :
    ∃ q out out', IsTable L r store.width into.width q ∧
      genericResize W N (formatU16Neon half N) L r store into = some (.ok (), out) ∧
      genericResize W N (formatU16X86 ⟨false, false⟩ fma fused N) L r store into = some (.ok (), out') ∧
      ∀ y x c, y < into.height → x < into.width → c < N → ∃ v v',
        sample out.buffer (into.strideOf N) N y x c = some v ∧ sample out'.buffer (into.strideOf N) N y x c = some v' ∧
        v ≤ v' ∧ v' ≤ v + 1 ∧ (N ≠ 4 → v = v') ∧
        (wsum (q.bound x).size (fun k => q.weight x k) (fun k =>
          ((pxD 0 store.buffer (store.strideOf N) N y ((q.bound x).start + k) c : ℕ) : ℤ)) % 32768 ≠ 16384 → v = v') := by
  obtain ⟨q, out, t, o1, o4⟩ := C180_u16_neon_horizontal h hh half
  obtain ⟨q', t', g⟩ := C78_horizontal_exact h hh
  obtain ⟨out', o1', o4'⟩ := g ⟨false, false⟩ fma fused
  obtain ⟨f, e, rfl⟩ := t
  obtain ⟨f', e', rfl⟩ := t'
  rw [e] at e'
  obtain rfl := Option.some.inj e'
  refine ⟨_, out, out', ⟨f, e, rfl⟩, o1, o1', fun y x c hy hx hc => ⟨_, _, o4 y x c hy hx hc, o4' y x c hy hx hc, ?_⟩⟩
  have k := fixedHalfDown_round (2 ^ into.bitDepth - 1) ((numericalApproximation F32.rnd f).bound x).size
    (fun k => (numericalApproximation F32.rnd f).weight x k) (fun k => pxD 0 store.buffer (store.strideOf N) N y
      (((numericalApproximation F32.rnd f).bound x).start + k) c)
  by_cases h4 : N = 4
  · rw [if_pos h4]
    exact ⟨k.1, k.2.1, fun h => absurd h4 h, k.2.2⟩
  · rw [if_neg h4]
    exact ⟨le_rfl, by omega, fun _ => rfl, fun _ => rfl⟩

theorem Demo.uhalf : AcceptedLb (2 ^ 64) 4 demoLib .bilinear ⟨[0, 0, 0, 0, 1, 2, 3, 4], 4, 2, 1, 8, 10⟩
    ⟨List.replicate 4 9, 4, 1, 1, 4, 10⟩ :=
  ⟨by constructor <;> decide +kernel, by decide, by decide +kernel, bothTables_of_check (by decide +kernel) (by decide +kernel)⟩

example : ∃ q out, IsTable demoLib .bilinear 2 1 q ∧ genericResize (2 ^ 64) 4 (formatU16Neon true 4) demoLib .bilinear
    ⟨[0, 0, 0, 0, 1, 2, 3, 4], 4, 2, 1, 8, 10⟩ ⟨List.replicate 4 9, 4, 1, 1, 4, 10⟩ = some (.ok (), out) := by
  obtain ⟨q, out, h1, h2, _⟩ := C180_u16_neon_horizontal Demo.uhalf rfl true
  exact ⟨q, out, h1, h2⟩

example : ∃ out out', genericResize (2 ^ 64) 4 (formatU16Neon true 4) demoLib .bilinear
    ⟨[0, 0, 0, 0, 1, 2, 3, 4], 4, 2, 1, 8, 16⟩ ⟨List.replicate 4 9, 4, 1, 1, 4, 16⟩ = some (.ok (), out) ∧
    genericResize (2 ^ 64) 4 (formatU16X86 ⟨false, false⟩ false true 4) demoLib .bilinear
    ⟨[0, 0, 0, 0, 1, 2, 3, 4], 4, 2, 1, 8, 16⟩ ⟨List.replicate 4 9, 4, 1, 1, 4, 16⟩ = some (.ok (), out') := by
  obtain ⟨out, out', h1, h2, _⟩ := C185_u16_neon_portable_deep (W := 2 ^ 64) (N := 4) (L := demoLib) (r := .bilinear)
    (store := ⟨[0, 0, 0, 0, 1, 2, 3, 4], 4, 2, 1, 8, 16⟩) (into := ⟨List.replicate 4 9, 4, 1, 1, 4, 16⟩)
    (by constructor <;> decide +kernel) (by decide) rfl true
  exact ⟨out, out', h1, h2⟩

/-- **C181 fails** in general: halving the width of a 10-bit RGBA row, 1 and 3 become 0 and 1 on NEON, 1 and 2 in
the portable code. -/
theorem C181_violated :
    genericResize (2 ^ 64) 4 (formatU16Neon false 4) demoLib .bilinear ⟨[0, 0, 0, 0, 1, 2, 3, 4], 4, 2, 1, 8, 10⟩
      ⟨List.replicate 4 9, 4, 1, 1, 4, 10⟩ = some (.ok (), ⟨[0, 1, 1, 2], 4, 1, 1, 4, 10⟩) ∧
    genericResize (2 ^ 64) 4 (formatU16X86 ⟨false, false⟩ false false 4) demoLib .bilinear ⟨[0, 0, 0, 0, 1, 2, 3, 4], 4, 2, 1, 8, 10⟩
      ⟨List.replicate 4 9, 4, 1, 1, 4, 10⟩ = some (.ok (), ⟨[1, 1, 2, 2], 4, 1, 1, 4, 10⟩) := by
  decide +kernel

/-! ### C182: the vertical pass -/

/-- **C182 (what the code does, up to 12 bits, fixed point).** A resize that keeps the width computes the sample
at position `x * N + c` of a row from the column `readColumn 16` of the source. -/
theorem C182_u16_neon_vertical {W N : ℕ} {L : Lib} {r : ResamplingFunction} {store into : Image ℕ}
    (h : AcceptedLb W N L r store into) (hw : store.width = into.width) :
    ∃ q out, IsTable L r store.height into.height q ∧
      genericResize W N (formatU16Neon false N) L r store into = some (.ok (), out) ∧
      ∀ y x c, y < into.height → x < into.width → c < N →
        sample out.buffer (into.strideOf N) N y x c = some
          (fixedHalfDown (2 ^ into.bitDepth - 1) (q.bound y).size (fun k => q.weight y k) (fun k =>
            rowPos 0 store.buffer (store.strideOf N) ((q.bound y).start + k)
              (readColumn 16 (store.width * N) (x * N + c)))) := by
  obtain ⟨qv, qh, out, tv, _, _, _, o1, _, _, o4⟩ := u16Neon_values h
  have hne : store.height ≠ into.height := by have := h.call.sizes; tauto
  refine ⟨qv, out, tv, o1, fun y x c hy hx hcc => ?_⟩
  rw [o4 y x c hy hx hcc]
  simp only [sepFun, if_pos hw, if_neg hne, vDown]

/-- **C182.** Where a row has a multiple of 16 samples, or at most 4, or 8, every sample of a resize that keeps the
width is the weighted sum of its own column, rounded to nearest with halves down. Other widths: `C182_violated`;
the list of widths is complete (`C77_widths`). -/
theorem C182_u16_neon_columns_partial {W N : ℕ} {L : Lib} {r : ResamplingFunction} {store into : Image ℕ}
    (h : AcceptedLb W N L r store into) (hw : store.width = into.width)
    (hn : store.width * N % 16 = 0 ∨ store.width * N ≤ 4 ∨ store.width * N = 8) :
    ∃ q out, IsTable L r store.height into.height q ∧
      genericResize W N (formatU16Neon false N) L r store into = some (.ok (), out) ∧
      ∀ y x c, y < into.height → x < into.width → c < N →
        sample out.buffer (into.strideOf N) N y x c = some
          (fixedHalfDown (2 ^ into.bitDepth - 1) (q.bound y).size (fun k => q.weight y k) (fun k =>
            pxD 0 store.buffer (store.strideOf N) N ((q.bound y).start + k) x c)) := by
  obtain ⟨q, out, h1, h2, h3⟩ := C182_u16_neon_vertical h hw
  refine ⟨q, out, h1, h2, fun y x c hy hx hcc => ?_⟩
  rw [h3 y x c hy hx hcc, (readColumn16 _).2 hn _ (pos_lt (by omega) hcc)]
  simp only [rowPos_pxD]

theorem Demo.uflat : AcceptedLb (2 ^ 64) 1 demoLib .bilinear ⟨(List.range 32).map (· * 30), 1, 16, 2, 16, 10⟩
    ⟨List.replicate 16 0, 1, 16, 1, 16, 10⟩ :=
  ⟨by constructor <;> decide +kernel, by decide, by decide +kernel, bothTables_of_check (by decide +kernel) (by decide +kernel)⟩

example : ∃ q out, IsTable demoLib .bilinear 2 1 q ∧ genericResize (2 ^ 64) 1 (formatU16Neon false 1) demoLib .bilinear
    ⟨(List.range 32).map (· * 30), 1, 16, 2, 16, 10⟩ ⟨List.replicate 16 0, 1, 16, 1, 16, 10⟩ = some (.ok (), out) := by
  obtain ⟨q, out, h1, h2, _⟩ := C182_u16_neon_columns_partial Demo.uflat rfl (Or.inl rfl)
  exact ⟨q, out, h1, h2⟩

/-- **C182 fails** in general: halving the height of a plane of five columns, the last column of the result shows
the first column of the source — in 10 bits with and without half precision, and in 16 bits. -/
theorem C182_violated :
    genericResize (2 ^ 64) 1 (formatU16Neon false 1) demoLib .bilinear
      ⟨[1, 2, 3, 4, 5, 1, 2, 3, 4, 5], 1, 5, 2, 5, 10⟩ ⟨List.replicate 5 0, 1, 5, 1, 5, 10⟩ =
      some (.ok (), ⟨[1, 2, 3, 4, 1], 1, 5, 1, 5, 10⟩) ∧
    genericResize (2 ^ 64) 1 (formatU16Neon true 1) demoLib .bilinear
      ⟨[1, 2, 3, 4, 5, 1, 2, 3, 4, 5], 1, 5, 2, 5, 10⟩ ⟨List.replicate 5 0, 1, 5, 1, 5, 10⟩ =
      some (.ok (), ⟨[1, 2, 3, 4, 1], 1, 5, 1, 5, 10⟩) ∧
    genericResize (2 ^ 64) 1 (formatU16Neon false 1) demoLib .bilinear
      ⟨[1, 2, 3, 4, 5, 1, 2, 3, 4, 5], 1, 5, 2, 5, 16⟩ ⟨List.replicate 5 0, 1, 5, 1, 5, 16⟩ =
      some (.ok (), ⟨[1, 2, 3, 4, 1], 1, 5, 1, 5, 16⟩) := by
  decide +kernel

/-! ### C183: channels -/

/-- **C183.** Up to 12 bits in fixed point, when the height does not change or rows have a multiple of 16 samples,
at most 4, or 8: every sample is computed from the samples of its own channel — vertical window first, then
horizontal window. Otherwise: `C183_violated`. -/
theorem C183_u16_neon_channels_partial {W N : ℕ} {L : Lib} {r : ResamplingFunction} {store into : Image ℕ}
    (h : AcceptedLb W N L r store into)
    (hn : store.height = into.height ∨ store.width * N % 16 = 0 ∨ store.width * N ≤ 4 ∨ store.width * N = 8) :
    ∃ qv qh out, IsTable L r store.height into.height qv ∧ IsTable L r store.width into.width qh ∧
      genericResize W N (formatU16Neon false N) L r store into = some (.ok (), out) ∧
      ∀ y x c, y < into.height → x < into.width → c < N →
        sample out.buffer (into.strideOf N) N y x c = some
          (separable store.width store.height into.width into.height
            (fun i => (qv.bound i).start)
            (fun i => fixedHalfDown (2 ^ into.bitDepth - 1) (qv.bound i).size (fun k => qv.weight i k))
            (fun i => (qh.bound i).start)
            (fun i => (if N = 4 then fixedHalfDown else fixedRound) (2 ^ into.bitDepth - 1) (qh.bound i).size
              (fun k => qh.weight i k))
            (fun y x => pxD 0 store.buffer (store.strideOf N) N y x c) y x) := by
  obtain ⟨qv, qh, out, tv, th, Tv, Th, o1, _, _, o4⟩ := u16Neon_values h
  refine ⟨qv, qh, out, tv, th, o1, fun y x c hy hx hc => ?_⟩
  rw [o4 y x c hy hx hc]
  congr 1
  have hcol : ∀ x', x' < store.width →
      (if store.height = into.height then rowPos 0 store.buffer (store.strideOf N) y (x' * N + c)
        else vDown (2 ^ into.bitDepth - 1) (store.width * N) qv y (x' * N + c) (rowPos 0 store.buffer (store.strideOf N))) =
      (if store.height = into.height then pxD 0 store.buffer (store.strideOf N) N y x' c
        else fixedHalfDown (2 ^ into.bitDepth - 1) (qv.bound y).size
          (fun k => qv.weight y k) (fun k => pxD 0 store.buffer (store.strideOf N) N ((qv.bound y).start + k) x' c)) := by
    intro x' hx'
    by_cases hh : store.height = into.height
    · rw [if_pos hh, if_pos hh, rowPos_pxD]
    · rw [if_neg hh, if_neg hh]
      unfold vDown
      rw [(readColumn16 _).2 (hn.resolve_left hh) _ (pos_lt hx' hc)]
      simp only [rowPos_pxD]
  unfold sepFun separable
  dsimp only
  by_cases hw : store.width = into.width
  · rw [if_pos hw, if_pos hw]
    exact hcol x (by omega)
  · rw [if_neg hw, if_neg hw]
    unfold hDown
    have key : ∀ k, k < (qh.bound x).size → _ = _ := fun k hk => hcol ((qh.bound x).start + k) (by
      have := Th.inside x hx
      omega)
    by_cases h4 : N = 4
    · rw [if_pos h4]; exact fixedHalfDown_congr (fun _ _ => rfl) key
    · rw [if_neg h4]; exact fixedRound_congr (fun _ _ => rfl) key

example : ∃ out, genericResize (2 ^ 64) 4 (formatU16Neon false 4) demoLib .bilinear (Demo.usrc 10)
    (Demo.udst 10) = some (.ok (), out) := by
  obtain ⟨_, _, out, _, _, o1, _⟩ := C183_u16_neon_channels_partial Demo.ulb (Or.inr (Or.inl rfl))
  exact ⟨out, o1⟩

/-- **C183 fails**: channels mix. Halving the height of a 10-bit RGB image of three columns, blue of the last pixel
is taken from red of the first. -/
theorem C183_violated :
    genericResize (2 ^ 64) 3 (formatU16Neon false 3) demoLib .bilinear
      ⟨[1000, 0, 0, 1000, 0, 0, 1000, 0, 0, 1000, 0, 0, 1000, 0, 0, 1000, 0, 0], 3, 3, 2, 9, 10⟩
      ⟨List.replicate 9 5, 3, 3, 1, 9, 10⟩ =
      some (.ok (), ⟨[1000, 0, 0, 1000, 0, 0, 1000, 0, 1000], 3, 3, 1, 9, 10⟩) := by
  decide +kernel

/-! ### C184: rows of one value -/

/-- The rows of a picture hold one value each, as positions. -/
theorem flat_rowPos {store : Image ℕ} {N : ℕ} (hN : 1 ≤ N) {g : ℕ → ℕ}
    (hg : ∀ y x c, y < store.height → x < store.width → c < N →
      sample store.buffer (store.strideOf N) N y x c = some (g y)) {y q : ℕ} (hy : y < store.height) (hq : q < store.width * N) :
    rowPos 0 store.buffer (store.strideOf N) y q = g y := by
  have hx' : q / N < store.width := Nat.div_lt_of_lt_mul (by rw [Nat.mul_comm]; exact hq)
  have hc' : q % N < N := Nat.mod_lt _ hN
  have hq' : q / N * N + q % N = q := by rw [Nat.mul_comm]; exact Nat.div_add_mod q N
  rw [← hq', rowPos_pxD, pxD, hg y _ _ hy hx' hc']
  rfl

theorem readColumn16_lt {n p : ℕ} (hp : p < n) : readColumn 16 n p < n := by
  unfold readColumn tailStart
  split_ifs <;> omega

/-- **C184 (up to 12 bits, fixed point).** If every source row holds a single sample value, so does every row of a
resize that keeps the width, for every width. -/
theorem C184_u16_neon_flat_rows {W N : ℕ} {L : Lib} {r : ResamplingFunction} {store into : Image ℕ}
    (h : AcceptedLb W N L r store into) (hw : store.width = into.width) (g : ℕ → ℕ)
    (hg : ∀ y x c, y < store.height → x < store.width → c < N →
      sample store.buffer (store.strideOf N) N y x c = some (g y)) :
    ∃ (out : Image ℕ) (g' : ℕ → ℕ), genericResize W N (formatU16Neon false N) L r store into = some (.ok (), out) ∧
      ∀ y x c, y < into.height → x < into.width → c < N →
        sample out.buffer (into.strideOf N) N y x c = some (g' y) := by
  obtain ⟨qv, _, out, tv, _, Tv, _, o1, _, _, o4⟩ := u16Neon_values h
  have hne : store.height ≠ into.height := by have := h.call.sizes; tauto
  refine ⟨out, fun y => fixedHalfDown (2 ^ into.bitDepth - 1) (qv.bound y).size (fun k => qv.weight y k)
    (fun k => g ((qv.bound y).start + k)), o1, fun y x c hy hx hc => ?_⟩
  have hin := Tv.inside y hy
  rw [o4 y x c hy hx hc]
  congr 1
  simp only [sepFun, if_pos hw, if_neg hne, vDown]
  exact fixedHalfDown_congr (fun _ _ => rfl) fun k hk => flat_rowPos h.call.channels.1 hg (by omega)
    (readColumn16_lt (pos_lt (by omega) hc))

/-- **C184 (half precision, or more than 12 bits).** The same, any samples — also above 12 bits, unlike x86 (C86). -/
theorem C184_u16_neon_flat_rows_float {W N : ℕ} {L : Lib} {r : ResamplingFunction} {store into : Image ℕ}
    (h : AcceptedCall16 W N r store into) (half : Bool) (hm : half = true ∨ 12 < into.bitDepth)
    (hw : store.width = into.width) (g : ℕ → ℕ)
    (hg : ∀ y x c, y < store.height → x < store.width → c < N →
      sample store.buffer (store.strideOf N) N y x c = some (g y)) :
    ∃ (out : Image ℕ) (g' : ℕ → ℕ), genericResize W N (formatU16Neon half N) L r store into = some (.ok (), out) ∧
      ∀ y x c, y < into.height → x < into.width → c < N →
        sample out.buffer (into.strideOf N) N y x c = some (g' y) := by
  obtain ⟨vf, _, out, _, _, Tv, _, _, _, o1, _, _, o4⟩ := u16Neon_raw (L := L) h half
  have hne : store.height ≠ into.height := by have := h.sizes; tauto
  have hcol : ∀ y q k, y < into.height → q < store.width * N → k < (vf.bound y).size →
      colOf vf (rowPos 0 store.buffer (store.strideOf N)) y q k = g ((vf.bound y).start + k) := by
    intro y q k hy hq hk
    unfold colOf
    have := Tv.inside y hy
    exact flat_rowPos h.channels.1 hg (by omega) hq
  refine ⟨out, fun y => if 12 < into.bitDepth then
      nearestClamp into.bitDepth (tapsL tapF 0 (rowW vf y) (fun k => g ((vf.bound y).start + k)) (List.range (vf.bound y).size))
    else narrowH into.bitDepth (tapsL tapH 0 (rowW (halfWeights vf) y) (fun k => g ((vf.bound y).start + k))
      (List.range (vf.bound y).size)), o1, fun y x c hy hx hc => ?_⟩
  rw [o4 y x c hy hx hc]
  congr 1
  simp only [sepFun, if_pos hw, if_neg hne]
  have hq := readColumn16_lt (pos_lt (show x < store.width by omega) hc)
  by_cases h12 : 12 < into.bitDepth
  · rw [if_pos h12, vvNeon16_deep _ h12 h.depth_le]
    exact congrArg _ (tapsL_congr fun k hk => ⟨rfl, hcol _ _ _ hy hq (by simpa using hk)⟩)
  · rw [if_neg h12, hm.resolve_right h12, vvNeon16_half (by omega)]
    exact congrArg _ (tapsL_congr fun k hk => ⟨rfl, hcol _ _ _ hy hq (by simpa using hk)⟩)

example : ∃ (out : Image ℕ) (g' : ℕ → ℕ), genericResize (2 ^ 64) 1 (formatU16Neon false 1) demoLib .bilinear
      ⟨[0, 0, 0, 0, 0, 1, 1, 1, 1, 1], 1, 5, 2, 5, 10⟩ ⟨List.replicate 5 0, 1, 5, 1, 5, 10⟩ = some (.ok (), out) ∧
    ∀ y x c, y < 1 → x < 5 → c < 1 → sample out.buffer 5 1 y x c = some (g' y) :=
  C184_u16_neon_flat_rows (W := 2 ^ 64) (N := 1) (L := demoLib) (r := .bilinear) (store := ⟨[0, 0, 0, 0, 0, 1, 1, 1, 1, 1], 1, 5, 2, 5, 10⟩) (into := ⟨List.replicate 5 0, 1, 5, 1, 5, 10⟩)
    ⟨by constructor <;> decide +kernel, by decide, by decide +kernel, bothTables_of_check (by decide +kernel) (by decide +kernel)⟩
    rfl (fun y => y) (by
      intro y x c hy hx hc
      have hy : y < 2 := hy
      have hx : x < 5 := hx
      interval_cases y <;> interval_cases x <;> interval_cases c <;> rfl)

example : ∃ (out : Image ℕ) (g' : ℕ → ℕ), genericResize (2 ^ 64) 1 (formatU16Neon false 1) demoLib .bilinear
      ⟨[0, 0, 0, 0, 0, 1, 1, 1, 1, 1], 1, 5, 2, 5, 16⟩ ⟨List.replicate 5 0, 1, 5, 1, 5, 16⟩ = some (.ok (), out) ∧
    ∀ y x c, y < 1 → x < 5 → c < 1 → sample out.buffer 5 1 y x c = some (g' y) :=
  C184_u16_neon_flat_rows_float (W := 2 ^ 64) (N := 1) (L := demoLib) (r := .bilinear) (store := ⟨[0, 0, 0, 0, 0, 1, 1, 1, 1, 1], 1, 5, 2, 5, 16⟩) (into := ⟨List.replicate 5 0, 1, 5, 1, 5, 16⟩)
    (by constructor <;> decide +kernel) false (Or.inr (by decide))
    rfl (fun y => y) (by
      intro y x c hy hx hc
      have hy : y < 2 := hy
      have hx : x < 5 := hx
      interval_cases y <;> interval_cases x <;> interval_cases c <;> rfl)

end PicScale
