import Verif.Props.X86
import Verif.Lemmas.X86U16Value

/-!
Property theorems about resizes of u16 images on x86 CPUs: C76–C86.
-/

namespace PicScale

open Spec Finset

/-- An accepted call of a convolution resize of u16 images. -/
structure AcceptedCall16 (W N : ℕ) (r : ResamplingFunction) (store into : Image ℕ) : Prop where
  channels : 1 ≤ N ∧ N ≤ 4
  checked : checkResize W N true store into = .ok ()
  filter : r ≠ .nearest
  sizes : store.width ≠ into.width ∨ store.height ≠ into.height
  small : store.width ≤ 2 ^ 23 ∧ store.height ≤ 2 ^ 23
  area : r = .area → into.width ≤ 2 ^ 22 ∧ into.height ≤ 2 ^ 22
  fits : store.width * into.height * N < W

/-- An accepted call with up to 12 bits: the samples are within the depth and no accumulator reaches `2^30`. -/
structure AcceptedLb (W N : ℕ) (L : Lib) (r : ResamplingFunction) (store into : Image ℕ) : Prop where
  call : AcceptedCall16 W N r store into
  depth : into.bitDepth ≤ 12
  inRange : ∀ v ∈ store.buffer, v ≤ 2 ^ into.bitDepth - 1
  noOverflow : BothTables L r store into (fun q out => NoOverflow30At q out (2 ^ into.bitDepth - 1))

theorem AcceptedCall16.by {W N : ℕ} {r : ResamplingFunction} {store into : Image ℕ} (h : AcceptedCall16 W N r store into)
    (cpu : Cpu) (fma fused : Bool) (L : Lib) :
    AcceptedBy W N (formatU16X86 cpu fma fused N) (fun _ => True) (fun fw out => PlainShape fw out) L r store into :=
  ⟨h.channels, h.checked, h.filter, h.sizes, h.small, h.area, h.fits, fun _ _ => trivial,
    ⟨fun _ _ s => s, fun _ _ s => s⟩⟩

/-- Every accepted resize, as a function of the source picture. -/
theorem u16X86_raw {W N : ℕ} {L : Lib} {r : ResamplingFunction} {store into : Image ℕ}
    (h : AcceptedCall16 W N r store into) (cpu : Cpu) (fma fused : Bool) :
    ∃ vf hf out, tableOf L r store.height into.height = some vf ∧ tableOf L r store.width into.width = some hf ∧
      ValidTable vf store.height into.height ∧ ValidTable hf store.width into.width ∧
      PlainShape vf into.height ∧ PlainShape hf into.width ∧
      genericResize W N (formatU16X86 cpu fma fused N) L r store into = some (.ok (), out) ∧
      SameShape out into ∧ PaddingKept N into out ∧
      ∀ y x c, y < into.height → x < into.width → c < N →
        sample out.buffer (into.strideOf N) N y x c = some (sepFun N store.width store.height
          into.width into.height (vvX86 cpu fma fused N into.bitDepth vf store.width)
          (hvX86 cpu fma fused N into.bitDepth hf into.height)
          (rowPos 0 store.buffer (store.strideOf N)) y x c) :=
  resize_fun (passFun_u16X86 cpu fma fused h.channels into.bitDepth) (h.by cpu fma fused L) rfl

/-! ### C76: no out-of-bounds access -/

/-- **C76.** On every x86 CPU, an accepted resize of u16 images — any depth, any number of channels, any
samples — returns normally, reads nothing outside the buffers, and writes only pixels of the destination. -/
theorem C76_u16_no_oob {W N : ℕ} {L : Lib} {r : ResamplingFunction} {store into : Image ℕ}
    (h : AcceptedCall16 W N r store into) (cpu : Cpu) (fma fused : Bool) :
    ∃ out, genericResize W N (formatU16X86 cpu fma fused N) L r store into = some (.ok (), out) ∧
      SameShape out into ∧ PaddingKept N into out := by
  obtain ⟨_, _, out, _, _, _, _, _, _, h1, h2, h3, _⟩ := u16X86_raw (L := L) h cpu fma fused
  exact ⟨out, h1, h2, h3⟩

def Demo.usrc (d : ℕ) : Image ℕ :=
  { buffer := (List.range 160).map (fun i => i % 32 * 31), channels := 4, width := 8, height := 5, stride := 32, bitDepth := d }
def Demo.udst (d : ℕ) : Image ℕ :=
  { buffer := List.replicate 27 9, channels := 4, width := 2, height := 3, stride := 9, bitDepth := d }

theorem Demo.ucall10 : AcceptedCall16 (2 ^ 64) 4 .bilinear (Demo.usrc 10) (Demo.udst 10) := by
  constructor <;> decide +kernel
theorem Demo.ucall16 : AcceptedCall16 (2 ^ 64) 4 .bilinear (Demo.usrc 16) (Demo.udst 16) := by
  constructor <;> decide +kernel

example : ∃ out, genericResize (2 ^ 64) 4 (formatU16X86 ⟨true, true⟩ true true 4) demoLib .bilinear (Demo.usrc 16)
    (Demo.udst 16) = some (.ok (), out) ∧ PaddingKept 4 (Demo.udst 16) out := by
  obtain ⟨out, h1, _, h3⟩ := C76_u16_no_oob (L := demoLib) Demo.ucall16 ⟨true, true⟩ true true
  exact ⟨out, h1, h3⟩

/-! ### the values up to 12 bits -/

theorem rowPos_le {buf : List ℕ} {M : ℕ} (h : ∀ v ∈ buf, v ≤ M) (st y q : ℕ) : rowPos 0 buf st y q ≤ M :=
  getD_le_of_forall h _

/-- Vertical pass value up to 12 bits: rounded on CPUs with vector instructions — from the column
`readColumn` — and truncated without. -/
def vLb (cpu : Cpu) (hi width : ℕ) (q : FilterWeights ℤ) (y p : ℕ) (P : ℕ → ℕ → ℕ) : ℕ :=
  if cpu.avx2 ∨ cpu.sse41 then
    fixedRound hi (q.bound y).size (fun k => q.weight y k)
      (fun k => P ((q.bound y).start + k) (readColumn (groupOf cpu) width p))
  else fixedFloor hi (q.bound y).size (fun k => q.weight y k) (fun k => P ((q.bound y).start + k) p)

/-- Horizontal pass value up to 12 bits. -/
def hLb (N hi : ℕ) (q : FilterWeights ℤ) (x c : ℕ) (p : ℕ → ℕ) : ℕ :=
  fixedRound hi (q.bound x).size (fun k => q.weight x k) (fun k => p (((q.bound x).start + k) * N + c))

theorem vLb_le (cpu : Cpu) (hi width : ℕ) (q : FilterWeights ℤ) (y p : ℕ) (P : ℕ → ℕ → ℕ) :
    vLb cpu hi width q y p P ≤ hi := by
  unfold vLb; split_ifs
  · exact fixedRound_le _ _ _ _
  · exact fixedFloor_le _ _ _ _

/-- Every sample of a resize of up to 12 bits. -/
theorem u16X86_values {W N : ℕ} {L : Lib} {r : ResamplingFunction} {store into : Image ℕ}
    (h : AcceptedLb W N L r store into) (cpu : Cpu) (fma fused : Bool) :
    ∃ qv qh out, IsTable L r store.height into.height qv ∧ IsTable L r store.width into.width qh ∧
      ValidTable qv store.height into.height ∧ ValidTable qh store.width into.width ∧
      genericResize W N (formatU16X86 cpu fma fused N) L r store into = some (.ok (), out) ∧
      SameShape out into ∧ PaddingKept N into out ∧
      ∀ y x c, y < into.height → x < into.width → c < N →
        sample out.buffer (into.strideOf N) N y x c = some (sepFun N store.width store.height
          into.width into.height (vLb cpu (2 ^ into.bitDepth - 1) (store.width * N) qv)
          (fun _ => hLb N (2 ^ into.bitDepth - 1) qh)
          (rowPos 0 store.buffer (store.strideOf N)) y x c) := by
  obtain ⟨vf, hf, out, ev, eh, Tv, Th, Sv, Sh, o1, o2, o3, o4⟩ := u16X86_raw (L := L) h.call cpu fma fused
  have nv := h.noOverflow.1 _ ⟨vf, ev, rfl⟩
  have nh := h.noOverflow.2 _ ⟨hf, eh, rfl⟩
  have hP := rowPos_le h.inRange (store.strideOf N)
  refine ⟨_, _, out, ⟨vf, ev, rfl⟩, ⟨hf, eh, rfl⟩, Sv.q_valid Tv, Sh.q_valid Th, o1, o2, o3, ?_⟩
  intro y x c hy hx hc
  rw [o4 y x c hy hx hc]
  congr 1
  have hv : ∀ q, vvX86 cpu fma fused N into.bitDepth vf store.width y q (rowPos 0 store.buffer (store.strideOf N)) =
      vLb cpu (2 ^ into.bitDepth - 1) (store.width * N) (numericalApproximation F32.rnd vf) y q
        (rowPos 0 store.buffer (store.strideOf N)) := by
    intro q
    rw [vvX86_lb h.depth Tv Sv nv hy hP]
    rfl
  unfold sepFun
  simp only [hv]
  by_cases hw : store.width = into.width
  · rw [if_pos hw, if_pos hw]
  · rw [if_neg hw, if_neg hw, hvX86_lb h.depth Th Sh nh hx]
    · rfl
    · intro q
      split_ifs
      · exact hP _ _
      · exact vLb_le _ _ _ _ _ _ _

instance (fw : FilterWeights ℤ) (out hi : ℕ) : Decidable (NoOverflow30At fw out hi) := by
  unfold NoOverflow30At; infer_instance

theorem bothTables_of_check {L : Lib} {r : ResamplingFunction} {store into : Image ℕ} {P : FilterWeights ℤ → ℕ → Prop}
    [∀ q o, Decidable (P q o)]
    (h1 : (tableOf L r store.height into.height).map (fun t => decide (P (numericalApproximation F32.rnd t) into.height)) = some true)
    (h2 : (tableOf L r store.width into.width).map (fun t => decide (P (numericalApproximation F32.rnd t) into.width)) = some true) :
    BothTables L r store into P := by
  constructor
  · rintro q ⟨fw, e, rfl⟩
    rw [e] at h1
    simpa using h1
  · rintro q ⟨fw, e, rfl⟩
    rw [e] at h2
    simpa using h2

theorem Demo.ulb : AcceptedLb (2 ^ 64) 4 demoLib .bilinear (Demo.usrc 10) (Demo.udst 10) :=
  ⟨Demo.ucall10, by decide, by decide +kernel, bothTables_of_check (by decide +kernel) (by decide +kernel)⟩

/-! ### C77: the vertical pass up to 12 bits -/

/-- **C77 (what the code does).** Up to 12 bits, a resize that keeps the width computes the sample at
position `x * N + c` of a row from the column `readColumn` of the source. -/
theorem C77_vertical_reads {W N : ℕ} {L : Lib} {r : ResamplingFunction} {store into : Image ℕ}
    (h : AcceptedLb W N L r store into) (hw : store.width = into.width) {cpu : Cpu} (hc : cpu.avx2 ∨ cpu.sse41)
    (fma fused : Bool) :
    ∃ q out, IsTable L r store.height into.height q ∧
      genericResize W N (formatU16X86 cpu fma fused N) L r store into = some (.ok (), out) ∧
      ∀ y x c, y < into.height → x < into.width → c < N →
        sample out.buffer (into.strideOf N) N y x c = some
          (fixedRound (2 ^ into.bitDepth - 1) (q.bound y).size (fun k => q.weight y k) (fun k =>
            rowPos 0 store.buffer (store.strideOf N) ((q.bound y).start + k)
              (readColumn (groupOf cpu) (store.width * N) (x * N + c)))) := by
  obtain ⟨qv, qh, out, tv, _, _, _, o1, _, _, o4⟩ := u16X86_values h cpu fma fused
  have hne : store.height ≠ into.height := by have := h.call.sizes; tauto
  refine ⟨qv, out, tv, o1, fun y x c hy hx hcc => ?_⟩
  rw [o4 y x c hy hx hcc]
  simp only [sepFun, if_pos hw, if_neg hne, vLb, if_pos hc]

/-- **C77.** Where a row has a multiple of 32 samples (16 on CPUs without AVX2), or at most 4, or 8 (or 16
with AVX2), every sample of a resize that keeps the width is the rounded weighted sum of its own column.
Other widths: `C77_violated`. -/
theorem C77_vertical_columns_partial {W N : ℕ} {L : Lib} {r : ResamplingFunction} {store into : Image ℕ}
    (h : AcceptedLb W N L r store into) (hw : store.width = into.width) {cpu : Cpu} (hc : cpu.avx2 ∨ cpu.sse41)
    (fma fused : Bool)
    (hn : if cpu.avx2 then store.width * N % 32 = 0 ∨ store.width * N ≤ 4 ∨ store.width * N = 8 ∨ store.width * N = 16
      else store.width * N % 16 = 0 ∨ store.width * N ≤ 4 ∨ store.width * N = 8) :
    ∃ q out, IsTable L r store.height into.height q ∧
      genericResize W N (formatU16X86 cpu fma fused N) L r store into = some (.ok (), out) ∧
      ∀ y x c, y < into.height → x < into.width → c < N →
        sample out.buffer (into.strideOf N) N y x c = some
          (fixedRound (2 ^ into.bitDepth - 1) (q.bound y).size (fun k => q.weight y k) (fun k =>
            pxD 0 store.buffer (store.strideOf N) N ((q.bound y).start + k) x c)) := by
  obtain ⟨q, out, h1, h2, h3⟩ := C77_vertical_reads h hw hc fma fused
  refine ⟨q, out, h1, h2, fun y x c hy hx hcc => ?_⟩
  rw [h3 y x c hy hx hcc]
  have hlt : x * N + c < store.width * N := by
    rw [hw]
    have := Nat.mul_le_mul_right N (show x + 1 ≤ into.width from hx)
    rw [Nat.add_mul] at this; omega
  have hr : readColumn (groupOf cpu) (store.width * N) (x * N + c) = x * N + c := by
    unfold groupOf
    by_cases ha : cpu.avx2 = true
    · rw [if_pos ha] at hn ⊢
      exact (readColumn32 _).2 hn _ hlt
    · rw [if_neg ha] at hn ⊢
      exact (readColumn16 _).2 hn _ hlt
  rw [hr]
  simp only [rowPos_pxD]

/-- **C77: which widths.** The list of widths in the theorem above is complete. -/
theorem C77_widths (n : ℕ) :
    ((∀ p, p < n → readColumn 16 n p = p) ↔ n % 16 = 0 ∨ n ≤ 4 ∨ n = 8) ∧
    ((∀ p, p < n → readColumn 32 n p = p) ↔ n % 32 = 0 ∨ n ≤ 4 ∨ n = 8 ∨ n = 16) :=
  ⟨readColumn16 n, readColumn32 n⟩

example : AcceptedLb (2 ^ 64) 1 demoLib .bilinear ⟨List.replicate 64 700, 1, 32, 2, 32, 10⟩ ⟨List.replicate 32 0, 1, 32, 1, 32, 10⟩ :=
  ⟨by constructor <;> decide +kernel, by decide, by decide +kernel, bothTables_of_check (by decide +kernel) (by decide +kernel)⟩

/-- **C77 fails** in general: halving the height of a 10-bit plane of five columns, the last column of the
result shows the first column of the source, with SSE4.1 and with AVX2; without either it shows its own. -/
theorem C77_violated :
    genericResize (2 ^ 64) 1 (formatU16X86 ⟨true, false⟩ false false 1) demoLib .bilinear
      ⟨[1, 2, 3, 4, 5, 1, 2, 3, 4, 5], 1, 5, 2, 5, 10⟩ ⟨List.replicate 5 0, 1, 5, 1, 5, 10⟩ =
      some (.ok (), ⟨[1, 2, 3, 4, 1], 1, 5, 1, 5, 10⟩) ∧
    genericResize (2 ^ 64) 1 (formatU16X86 ⟨true, true⟩ false false 1) demoLib .bilinear
      ⟨[1, 2, 3, 4, 5, 1, 2, 3, 4, 5], 1, 5, 2, 5, 10⟩ ⟨List.replicate 5 0, 1, 5, 1, 5, 10⟩ =
      some (.ok (), ⟨[1, 2, 3, 4, 1], 1, 5, 1, 5, 10⟩) ∧
    genericResize (2 ^ 64) 1 (formatU16X86 ⟨false, false⟩ false false 1) demoLib .bilinear
      ⟨[1, 2, 3, 4, 5, 1, 2, 3, 4, 5], 1, 5, 2, 5, 10⟩ ⟨List.replicate 5 0, 1, 5, 1, 5, 10⟩ =
      some (.ok (), ⟨[1, 2, 3, 4, 5], 1, 5, 1, 5, 10⟩) := by
  decide +kernel

/-! ### C78: the horizontal pass up to 12 bits -/

/-- **C78.** Up to 12 bits, a resize that keeps the height gives the same picture on every x86 CPU: every
sample is the weighted sum of its row and channel, rounded to nearest and clamped. -/
theorem C78_horizontal_exact {W N : ℕ} {L : Lib} {r : ResamplingFunction} {store into : Image ℕ}
    (h : AcceptedLb W N L r store into) (hh : store.height = into.height) :
    ∃ q, IsTable L r store.width into.width q ∧ ∀ (cpu : Cpu) (fma fused : Bool), ∃ out,
      genericResize W N (formatU16X86 cpu fma fused N) L r store into = some (.ok (), out) ∧
      ∀ y x c, y < into.height → x < into.width → c < N →
        sample out.buffer (into.strideOf N) N y x c = some
          (fixedRound (2 ^ into.bitDepth - 1) (q.bound x).size (fun k => q.weight x k) (fun k =>
            pxD 0 store.buffer (store.strideOf N) N y ((q.bound x).start + k) c)) := by
  obtain ⟨_, q, _, _, th, _⟩ := u16X86_values h ⟨false, false⟩ false false
  refine ⟨q, th, fun cpu fma fused => ?_⟩
  obtain ⟨_, q', out, _, th', _, _, o1, _, _, o4⟩ := u16X86_values h cpu fma fused
  obtain ⟨f, e, rfl⟩ := th
  obtain ⟨f', e', rfl⟩ := th'
  rw [e] at e'
  obtain rfl := Option.some.inj e'
  have hne : store.width ≠ into.width := by have := h.call.sizes; tauto
  refine ⟨out, o1, fun y x c hy hx hc => ?_⟩
  rw [o4 y x c hy hx hc]
  simp only [sepFun, if_pos hh, if_neg hne, hLb, rowPos_pxD]

example : ∃ out, genericResize (2 ^ 64) 4 (formatU16X86 ⟨true, true⟩ true true 4) demoLib .bilinear
    ⟨(List.range 32).map (fun i => i * 31), 4, 8, 1, 32, 10⟩ ⟨List.replicate 8 0, 4, 2, 1, 8, 10⟩ = some (.ok (), out) ∧
    AcceptedLb (2 ^ 64) 4 demoLib .bilinear ⟨(List.range 32).map (fun i => i * 31), 4, 8, 1, 32, 10⟩
      ⟨List.replicate 8 0, 4, 2, 1, 8, 10⟩ := by
  have h : AcceptedLb (2 ^ 64) 4 demoLib .bilinear ⟨(List.range 32).map (fun i => i * 31), 4, 8, 1, 32, 10⟩
      ⟨List.replicate 8 0, 4, 2, 1, 8, 10⟩ :=
    ⟨by constructor <;> decide +kernel, by decide, by decide +kernel, bothTables_of_check (by decide +kernel) (by decide +kernel)⟩
  obtain ⟨_, _, g⟩ := C78_horizontal_exact h rfl
  obtain ⟨out, o1, _⟩ := g ⟨true, true⟩ true true
  exact ⟨out, o1, h⟩

/-! ### C79, C80: range -/

/-- **C79.** Up to 12 bits, a resize of samples within the depth writes only samples within the depth. -/
theorem C79_range_lb {W N : ℕ} {L : Lib} {r : ResamplingFunction} {store into : Image ℕ}
    (h : AcceptedLb W N L r store into) (cpu : Cpu) (fma fused : Bool) :
    ∃ out, genericResize W N (formatU16X86 cpu fma fused N) L r store into = some (.ok (), out) ∧
      ∀ y x c, y < into.height → x < into.width → c < N →
        ∃ v, sample out.buffer (into.strideOf N) N y x c = some v ∧ v ≤ 2 ^ into.bitDepth - 1 := by
  obtain ⟨qv, qh, out, _, _, _, _, o1, _, _, o4⟩ := u16X86_values h cpu fma fused
  refine ⟨out, o1, fun y x c hy hx hc => ⟨_, o4 y x c hy hx hc, ?_⟩⟩
  unfold sepFun
  dsimp only
  split_ifs with h1 h2
  · exact rowPos_le h.inRange _ _ _
  · exact vLb_le _ _ _ _ _ _ _
  all_goals exact fixedRound_le _ _ _ _

/-- Non-vacuous: both dimensions change. -/
example : ∃ out, genericResize (2 ^ 64) 4 (formatU16X86 ⟨true, true⟩ true true 4) demoLib .bilinear (Demo.usrc 10)
    (Demo.udst 10) = some (.ok (), out) ∧ ∃ v, sample out.buffer 9 4 2 1 3 = some v ∧ v ≤ 1023 := by
  obtain ⟨out, o1, o4⟩ := C79_range_lb Demo.ulb ⟨true, true⟩ true true
  exact ⟨out, o1, o4 2 1 3 (by decide) (by decide) (by decide)⟩

/-- **C85 fails.** Up to 12 bits, samples beyond the depth are not always clamped: a 10-bit destination receives 32768 (the portable code
clamps to 1023). -/
theorem C85_violated :
    genericResize (2 ^ 64) 1 (formatU16X86 ⟨true, false⟩ false false 1) demoLib .bilinear
      ⟨List.replicate 20 32767, 1, 4, 5, 4, 10⟩ ⟨List.replicate 4 0, 1, 4, 1, 4, 10⟩ =
      some (.ok (), ⟨List.replicate 4 32768, 1, 4, 1, 4, 10⟩) ∧
    genericResize (2 ^ 64) 1 (formatU16X86 ⟨false, false⟩ false false 1) demoLib .bilinear
      ⟨List.replicate 20 32767, 1, 4, 5, 4, 10⟩ ⟨List.replicate 4 0, 1, 4, 1, 4, 10⟩ =
      some (.ok (), ⟨List.replicate 4 1023, 1, 4, 1, 4, 10⟩) := by
  decide +kernel

theorem fpVal_le {d : ℕ} (hd : d ≤ 16) (a : ℚ) : fpVal d a ≤ 2 ^ d - 1 := by
  have hp := two_pow_le16 hd
  have h1 : 1 ≤ 2 ^ d := Nat.one_le_two_pow
  have hm : 2 ^ d - 1 < 65536 := by omega
  unfold fpVal
  rw [← cast_two_pow]
  generalize 2 ^ d - 1 = m at *
  rw [i32_eq_self (v := (m : ℤ)) (by omega) (by omega)]
  unfold u16
  omega

theorem vvX86_deep_le (cpu : Cpu) (fma fused : Bool) {N d : ℕ} (h12 : 12 < d) (hd : d ≤ 16) (fw : FilterWeights ℚ)
    (width y q : ℕ) (P : ℕ → ℕ → ℕ) : vvX86 cpu fma fused N d fw width y q P ≤ 2 ^ d - 1 := by
  unfold vvX86 columnVal
  dsimp only
  rw [if_pos h12]
  split_ifs
  · exact fpVal_le hd _
  · rw [toMixedU16_eq]; exact ceilClamp_le _ _
  · exact v16_le _ _ _ _ _

theorem hvX86_deep_le (cpu : Cpu) (fma fused : Bool) {N d : ℕ} (h12 : 12 < d) (hd : d ≤ 16) (fw : FilterWeights ℚ)
    (H y x c : ℕ) (p : ℕ → ℕ) : hvX86 cpu fma fused N d fw H y x c p ≤ 2 ^ d - 1 := by
  unfold hvX86
  dsimp only
  rw [if_pos h12]
  split_ifs
  · exact fpVal_le hd _
  · exact h16_le _ _ _ _ _

/-- **C80.** Above 12 bits, a resize writes only samples within the depth, whatever the source samples. -/
theorem C80_range_deep {W N : ℕ} {L : Lib} {r : ResamplingFunction} {store into : Image ℕ}
    (h : AcceptedCall16 W N r store into) (h12 : 12 < into.bitDepth) (cpu : Cpu) (fma fused : Bool) :
    ∃ out, genericResize W N (formatU16X86 cpu fma fused N) L r store into = some (.ok (), out) ∧
      ∀ y x c, y < into.height → x < into.width → c < N →
        ∃ v, sample out.buffer (into.strideOf N) N y x c = some v ∧ v ≤ 2 ^ into.bitDepth - 1 := by
  obtain ⟨vf, hf, out, _, _, _, _, _, _, o1, _, _, o4⟩ := u16X86_raw (L := L) h cpu fma fused
  have hd : into.bitDepth ≤ 16 := ((checkResize_ok.1 h.checked).2.2.2.2.2 rfl).2
  refine ⟨out, o1, fun y x c hy hx hc => ⟨_, o4 y x c hy hx hc, ?_⟩⟩
  unfold sepFun
  dsimp only
  split_ifs with h1 h2
  · have := h.sizes; tauto
  · exact vvX86_deep_le _ _ _ h12 hd _ _ _ _ _
  all_goals exact hvX86_deep_le _ _ _ h12 hd _ _ _ _ _ _

example : ∃ out, genericResize (2 ^ 64) 4 (formatU16X86 ⟨true, true⟩ true true 4) demoLib .bilinear (Demo.usrc 16)
    (Demo.udst 16) = some (.ok (), out) ∧ ∃ v, sample out.buffer 9 4 2 1 3 = some v ∧ v ≤ 65535 := by
  obtain ⟨out, o1, o4⟩ := C80_range_deep (L := demoLib) Demo.ucall16 (by decide) ⟨true, true⟩ true true
  exact ⟨out, o1, o4 2 1 3 (by decide) (by decide) (by decide)⟩

/-! ### C81: rows do not depend on where they are (above 12 bits) -/

/-- **C81.** Above 12 bits, a resize that keeps the height treats every row alike — equal source rows give
equal rows — unless the image is RGBA, the CPU has SSE4.1 and the height is not a multiple of four. -/
theorem C81_rows_alike_partial {W N : ℕ} {L : Lib} {r : ResamplingFunction} {store into : Image ℕ}
    (h : AcceptedCall16 W N r store into) (h12 : 12 < into.bitDepth) (hh : store.height = into.height)
    (cpu : Cpu) (fma fused : Bool) (hc : N ≠ 4 ∨ cpu.sse41 = false ∨ into.height % 4 = 0) :
    ∃ hf out, tableOf L r store.width into.width = some hf ∧
      genericResize W N (formatU16X86 cpu fma fused N) L r store into = some (.ok (), out) ∧
      ∀ y x c, y < into.height → x < into.width → c < N →
        sample out.buffer (into.strideOf N) N y x c = some
          (ceilClamp into.bitDepth (leftSum (fun a b => F32.rnd (a * b)) (mlaf F32.rnd fused)
            (fun k => ((pxD 0 store.buffer (store.strideOf N) N y ((hf.bound x).start + k) c : ℕ) : ℚ))
            (fun k => hf.weight x k) (hf.bound x).size)) := by
  obtain ⟨vf, hf, out, _, eh, _, _, _, _, o1, _, _, o4⟩ := u16X86_raw (L := L) h cpu fma fused
  have hne : store.width ≠ into.width := by have := h.sizes; tauto
  refine ⟨hf, out, eh, o1, fun y x c hy hx hcc => ?_⟩
  rw [o4 y x c hy hx hcc]
  simp only [sepFun, if_pos hh, if_neg hne, hvX86, if_pos h12]
  rw [if_neg (by
    rintro ⟨rfl, hs, hy4⟩
    rcases hc with hc | hc | hc
    · exact hc rfl
    · rw [hc] at hs; exact absurd hs (by decide)
    · omega)]
  simp only [h16, if_pos h12, rowPos_pxD]

example : AcceptedCall16 (2 ^ 64) 4 .bilinear ⟨List.replicate 32 700, 4, 2, 4, 8, 16⟩ ⟨List.replicate 16 0, 4, 1, 4, 4, 16⟩ ∧
    12 < (16 : ℕ) ∧ (4 : ℕ) % 4 = 0 := by
  refine ⟨by constructor <;> decide +kernel, by decide, by decide⟩

/-- **C81 fails** in general: five equal rows of a 16-bit RGBA image shrink to four equal rows and a
different fifth one when the CPU has SSE4.1. -/
theorem C81_violated :
    genericResize (2 ^ 64) 4 (formatU16X86 ⟨true, false⟩ false false 4) demoLib .bilinear
      ⟨(List.range 160).map (fun i => i % 32 * 1000), 4, 8, 5, 32, 16⟩ ⟨List.replicate 40 0, 4, 2, 5, 8, 16⟩ =
      some (.ok (), ⟨[7572, 8572, 9572, 10572, 20429, 21429, 22429, 23429,
        7572, 8572, 9572, 10572, 20429, 21429, 22429, 23429,
        7572, 8572, 9572, 10572, 20429, 21429, 22429, 23429,
        7572, 8572, 9572, 10572, 20429, 21429, 22429, 23429,
        8286, 9286, 10286, 11286, 20571, 21571, 22571, 23571], 4, 2, 5, 8, 16⟩) := by
  decide +kernel

/-! ### C82: the CPU (vertical, up to 12 bits) -/

/-- **C82.** Up to 12 bits and for widths where every column is read (see C77), a resize that keeps the width
gives the same picture on all CPUs with vector instructions, and each sample differs by at most one from the
picture computed without them. The portable code truncates, the vector code rounds: `C82_violated`. -/
theorem C82_cpu_partial {W N : ℕ} {L : Lib} {r : ResamplingFunction} {store into : Image ℕ}
    (h : AcceptedLb W N L r store into) (hw : store.width = into.width)
    (hn : store.width * N % 32 = 0 ∨ store.width * N ≤ 4 ∨ store.width * N = 8 ∨ store.width * N = 16)
    (cpu cpu' : Cpu) (fma fma' fused fused' : Bool) :
    ∃ out out', genericResize W N (formatU16X86 cpu fma fused N) L r store into = some (.ok (), out) ∧
      genericResize W N (formatU16X86 cpu' fma' fused' N) L r store into = some (.ok (), out') ∧
      ∀ y x c, y < into.height → x < into.width → c < N → ∃ v v',
        sample out.buffer (into.strideOf N) N y x c = some v ∧ sample out'.buffer (into.strideOf N) N y x c = some v' ∧
        v ≤ v' + 1 ∧ v' ≤ v + 1 ∧ ((cpu.avx2 ∨ cpu.sse41) → (cpu'.avx2 ∨ cpu'.sse41) → v = v') := by
  obtain ⟨qv, _, out, tv, _, _, _, o1, _, _, o4⟩ := u16X86_values h cpu fma fused
  obtain ⟨qv', _, out', tv', _, _, _, o1', _, _, o4'⟩ := u16X86_values h cpu' fma' fused'
  obtain ⟨f, e, rfl⟩ := tv
  obtain ⟨f', e', rfl⟩ := tv'
  rw [e] at e'
  obtain rfl := Option.some.inj e'
  have hne : store.height ≠ into.height := by have := h.call.sizes; tauto
  have hr : ∀ (cpu : Cpu) p, p < store.width * N → readColumn (groupOf cpu) (store.width * N) p = p := by
    intro cpu p hp
    unfold groupOf
    split_ifs
    · exact (readColumn32 _).2 hn _ hp
    · exact (readColumn16 _).2 (by omega) _ hp
  refine ⟨out, out', o1, o1', fun y x c hy hx hc => ⟨_, _, o4 y x c hy hx hc, o4' y x c hy hx hc, ?_⟩⟩
  have hlt : x * N + c < store.width * N := by
    rw [hw]
    have := Nat.mul_le_mul_right N (show x + 1 ≤ into.width from hx)
    rw [Nat.add_mul] at this; omega
  simp only [sepFun, if_pos hw, if_neg hne, vLb, hr cpu _ hlt, hr cpu' _ hlt]
  have k := fixedRound_floor (2 ^ into.bitDepth - 1) ((numericalApproximation F32.rnd f).bound y).size
    (fun k => (numericalApproximation F32.rnd f).weight y k) (fun k => rowPos 0 store.buffer (store.strideOf N)
      (((numericalApproximation F32.rnd f).bound y).start + k) (x * N + c))
  split_ifs with h1 h2 h2
  · exact ⟨by omega, by omega, fun _ _ => rfl⟩
  · exact ⟨by omega, by omega, fun _ h => absurd h h2⟩
  · exact ⟨by omega, by omega, fun h => absurd h h1⟩
  · exact ⟨by omega, by omega, fun h => absurd h h1⟩

example : AcceptedLb (2 ^ 64) 1 demoLib .bilinear ⟨[0, 0, 0, 0, 1, 1, 1, 1], 1, 4, 2, 4, 10⟩ ⟨List.replicate 4 0, 1, 4, 1, 4, 10⟩ :=
  ⟨by constructor <;> decide +kernel, by decide, by decide +kernel, bothTables_of_check (by decide +kernel) (by decide +kernel)⟩

/-- **C82 fails**: the same call gives 0 or 1 depending on the CPU. -/
theorem C82_violated :
    genericResize (2 ^ 64) 1 (formatU16X86 ⟨false, false⟩ false false 1) demoLib .bilinear
      ⟨[0, 0, 0, 0, 1, 1, 1, 1], 1, 4, 2, 4, 10⟩ ⟨List.replicate 4 0, 1, 4, 1, 4, 10⟩ =
      some (.ok (), ⟨[0, 0, 0, 0], 1, 4, 1, 4, 10⟩) ∧
    genericResize (2 ^ 64) 1 (formatU16X86 ⟨true, true⟩ false false 1) demoLib .bilinear
      ⟨[0, 0, 0, 0, 1, 1, 1, 1], 1, 4, 2, 4, 10⟩ ⟨List.replicate 4 0, 1, 4, 1, 4, 10⟩ =
      some (.ok (), ⟨[1, 1, 1, 1], 1, 4, 1, 4, 10⟩) := by
  decide +kernel

/-! ### C83: rows of one colour -/

/-- **C83.** Up to 12 bits: if every source row holds a single sample value, so does every row of a resize
that keeps the width — on every CPU and for every width. -/
theorem C83_flat_rows_lb {W N : ℕ} {L : Lib} {r : ResamplingFunction} {store into : Image ℕ}
    (h : AcceptedLb W N L r store into) (hw : store.width = into.width) (cpu : Cpu) (fma fused : Bool) (g : ℕ → ℕ)
    (hg : ∀ y x c, y < store.height → x < store.width → c < N →
      sample store.buffer (store.strideOf N) N y x c = some (g y)) :
    ∃ (out : Image ℕ) (g' : ℕ → ℕ), genericResize W N (formatU16X86 cpu fma fused N) L r store into = some (.ok (), out) ∧
      ∀ y x c, y < into.height → x < into.width → c < N →
        sample out.buffer (into.strideOf N) N y x c = some (g' y) := by
  obtain ⟨qv, _, out, tv, _, Tv, _, o1, _, _, o4⟩ := u16X86_values h cpu fma fused
  have hne : store.height ≠ into.height := by have := h.call.sizes; tauto
  have hN := h.call.channels.1
  have hp : ∀ y q, y < store.height → q < store.width * N → rowPos 0 store.buffer (store.strideOf N) y q = g y := by
    intro y q hy hq
    have hx' : q / N < store.width := Nat.div_lt_of_lt_mul (by rw [Nat.mul_comm]; exact hq)
    have hc' : q % N < N := Nat.mod_lt _ hN
    have hq' : q / N * N + q % N = q := by rw [Nat.mul_comm]; exact Nat.div_add_mod q N
    rw [← hq', rowPos_pxD, pxD, hg y _ _ hy hx' hc']
    rfl
  have hrc : ∀ B p, B = 16 ∨ B = 32 → p < store.width * N → readColumn B (store.width * N) p < store.width * N := by
    rintro B p hB hp
    generalize store.width * N = n at *
    unfold readColumn tailStart
    rcases hB with rfl | rfl <;> split_ifs <;> omega
  refine ⟨out, fun y => if cpu.avx2 ∨ cpu.sse41 then
      fixedRound (2 ^ into.bitDepth - 1) (qv.bound y).size (fun k => qv.weight y k) (fun k => g ((qv.bound y).start + k))
    else fixedFloor (2 ^ into.bitDepth - 1) (qv.bound y).size (fun k => qv.weight y k) (fun k => g ((qv.bound y).start + k)),
    o1, fun y x c hy hx hc => ?_⟩
  have hlt : x * N + c < store.width * N := by
    rw [hw]
    have := Nat.mul_le_mul_right N (show x + 1 ≤ into.width from hx)
    rw [Nat.add_mul] at this; omega
  have hin := Tv.inside y hy
  rw [o4 y x c hy hx hc]
  congr 1
  simp only [sepFun, if_pos hw, if_neg hne, vLb]
  split_ifs
  · refine fixedRound_congr (fun _ _ => rfl) fun k hk => hp _ _ (by omega) (hrc _ _ ?_ hlt)
    unfold groupOf
    split_ifs <;> simp
  · exact fixedFloor_congr (fun _ _ => rfl) fun k hk => hp _ _ (by omega) hlt

example : ∃ (out : Image ℕ) (g' : ℕ → ℕ), genericResize (2 ^ 64) 1 (formatU16X86 ⟨true, true⟩ false false 1) demoLib .bilinear
      ⟨[0, 0, 0, 0, 0, 1, 1, 1, 1, 1], 1, 5, 2, 5, 10⟩ ⟨List.replicate 5 0, 1, 5, 1, 5, 10⟩ = some (.ok (), out) ∧
    ∀ y x c, y < 1 → x < 5 → c < 1 → sample out.buffer 5 1 y x c = some (g' y) :=
  C83_flat_rows_lb (W := 2 ^ 64) (N := 1) (L := demoLib) (r := .bilinear) (store := ⟨[0, 0, 0, 0, 0, 1, 1, 1, 1, 1], 1, 5, 2, 5, 10⟩) (into := ⟨List.replicate 5 0, 1, 5, 1, 5, 10⟩)
    ⟨by constructor <;> decide +kernel, by decide, by decide +kernel, bothTables_of_check (by decide +kernel) (by decide +kernel)⟩
    rfl _ _ _ (fun y => y) (by
      intro y x c hy hx hc
      have hy : y < 2 := hy
      have hx : x < 5 := hx
      interval_cases y <;> interval_cases x <;> interval_cases c <;> rfl)

/-- **C86.** Above 12 bits: if every source row holds a single sample value, so does every row of a resize
that keeps the width — when rows have a multiple of four samples or the CPU lacks SSE4.1. Other rows:
`C86_violated`. -/
theorem C86_flat_rows_partial {W N : ℕ} {L : Lib} {r : ResamplingFunction} {store into : Image ℕ}
    (h : AcceptedCall16 W N r store into) (h12 : 12 < into.bitDepth) (hw : store.width = into.width)
    (cpu : Cpu) (fma fused : Bool) (h4 : store.width * N % 4 = 0 ∨ cpu.sse41 = false) (g : ℕ → ℕ)
    (hg : ∀ y x c, y < store.height → x < store.width → c < N →
      sample store.buffer (store.strideOf N) N y x c = some (g y)) :
    ∃ (out : Image ℕ) (g' : ℕ → ℕ), genericResize W N (formatU16X86 cpu fma fused N) L r store into = some (.ok (), out) ∧
      ∀ y x c, y < into.height → x < into.width → c < N →
        sample out.buffer (into.strideOf N) N y x c = some (g' y) := by
  obtain ⟨vf, _, out, _, _, Tv, _, _, _, o1, _, _, o4⟩ := u16X86_raw (L := L) h cpu fma fused
  have hne : store.height ≠ into.height := by have := h.sizes; tauto
  have hN := h.channels.1
  have hp : ∀ y q, y < store.height → q < store.width * N → rowPos 0 store.buffer (store.strideOf N) y q = g y := by
    intro y q hy hq
    have hx' : q / N < store.width := Nat.div_lt_of_lt_mul (by rw [Nat.mul_comm]; exact hq)
    have hc' : q % N < N := Nat.mod_lt _ hN
    have hq' : q / N * N + q % N = q := by rw [Nat.mul_comm]; exact Nat.div_add_mod q N
    rw [← hq', rowPos_pxD, pxD, hg y _ _ hy hx' hc']
    rfl
  have hrc : ∀ p, p < store.width * N → readColumn 16 (store.width * N) p < store.width * N := by
    intro p hp
    generalize store.width * N = n at *
    unfold readColumn tailStart
    split_ifs <;> omega
  have hcol : ∀ y q k, y < into.height → q < store.width * N → k < (vf.bound y).size →
      colOf vf (rowPos 0 store.buffer (store.strideOf N)) y q k = g ((vf.bound y).start + k) := by
    intro y q k hy hq hk
    unfold colOf
    have := Tv.inside y hy
    exact hp _ _ (by omega) hq
  refine ⟨out, fun y => if cpu.sse41 then
      fpVal into.bitDepth (fpAcc fma (rowW vf y) (fun k => g ((vf.bound y).start + k)) (vf.bound y).size)
    else v16 fused into.bitDepth vf y (fun k => g ((vf.bound y).start + k)), o1, fun y x c hy hx hc => ?_⟩
  have hlt : x * N + c < store.width * N := by
    rw [hw]
    have := Nat.mul_le_mul_right N (show x + 1 ≤ into.width from hx)
    rw [Nat.add_mul] at this; omega
  rw [o4 y x c hy hx hc]
  congr 1
  simp only [sepFun, if_pos hw, if_neg hne, vvX86, if_pos h12]
  by_cases hs : cpu.sse41 = true
  · have hm : store.width * N % 4 = 0 := h4.resolve_right (by rw [hs]; decide)
    rw [if_pos hs, if_pos hs]
    unfold columnVal
    rw [if_pos (by omega)]
    refine congrArg (fpVal into.bitDepth) (fpFold_congr fma _ fun t ht => ⟨rfl, ?_⟩)
    have : t.2 < (vf.bound y).size := by
      unfold taps1 at ht
      simp only [List.mem_map, List.mem_range] at ht
      obtain ⟨k, hk, rfl⟩ := ht
      dsimp only
      omega
    exact hcol _ _ _ hy (hrc _ hlt) this
  · rw [if_neg hs, if_neg hs]
    unfold v16
    rw [if_pos h12, if_pos h12]
    refine congrArg (ceilClamp into.bitDepth) (leftSum_congr (Tv.size_pos y hy) (fun k hk => ?_) (fun _ _ => rfl))
    rw [hcol _ _ _ hy hlt hk]

example : ∃ (out : Image ℕ) (g' : ℕ → ℕ), genericResize (2 ^ 64) 1 (formatU16X86 ⟨true, true⟩ false false 1) demoLib .bilinear
      ⟨[0, 0, 0, 0, 1, 1, 1, 1], 1, 4, 2, 4, 16⟩ ⟨List.replicate 4 0, 1, 4, 1, 4, 16⟩ = some (.ok (), out) ∧
    ∀ y x c, y < 1 → x < 4 → c < 1 → sample out.buffer 4 1 y x c = some (g' y) :=
  C86_flat_rows_partial (W := 2 ^ 64) (N := 1) (L := demoLib) (r := .bilinear) (store := ⟨[0, 0, 0, 0, 1, 1, 1, 1], 1, 4, 2, 4, 16⟩)
    (into := ⟨List.replicate 4 0, 1, 4, 1, 4, 16⟩)
    (by constructor <;> decide +kernel) (by decide) rfl _ _ _ (Or.inl rfl) (fun y => y) (by
      intro y x c hy hx hc
      have hy : y < 2 := hy
      have hx : x < 4 := hx
      interval_cases y <;> interval_cases x <;> interval_cases c <;> rfl)

/-- **C86 fails** (C83 above 12 bits): two rows of one value each give a row of two different values, because the
last columns are rounded up and the others to nearest. -/
theorem C86_violated :
    genericResize (2 ^ 64) 1 (formatU16X86 ⟨true, false⟩ false false 1) demoLib .bilinear
      ⟨[0, 0, 0, 0, 0, 1, 1, 1, 1, 1], 1, 5, 2, 5, 16⟩ ⟨List.replicate 5 0, 1, 5, 1, 5, 16⟩ =
      some (.ok (), ⟨[0, 0, 0, 0, 1], 1, 5, 1, 5, 16⟩) := by
  decide +kernel

/-! ### C84: channels -/

/-- **C84.** Up to 12 bits, for widths where every column is read, or when the height does not change, or
without vector instructions: every sample is computed from the samples of its own channel — vertical window
first, then horizontal window. Otherwise: `C84_violated`. -/
theorem C84_channels_partial {W N : ℕ} {L : Lib} {r : ResamplingFunction} {store into : Image ℕ}
    (h : AcceptedLb W N L r store into) (cpu : Cpu) (fma fused : Bool)
    (hn : store.height = into.height ∨ (cpu.avx2 = false ∧ cpu.sse41 = false) ∨
      store.width * N % 32 = 0 ∨ store.width * N ≤ 4 ∨ store.width * N = 8) :
    ∃ qv qh out, IsTable L r store.height into.height qv ∧ IsTable L r store.width into.width qh ∧
      genericResize W N (formatU16X86 cpu fma fused N) L r store into = some (.ok (), out) ∧
      ∀ y x c, y < into.height → x < into.width → c < N →
        sample out.buffer (into.strideOf N) N y x c = some
          (separable store.width store.height into.width into.height
            (fun i => (qv.bound i).start)
            (fun i => (if cpu.avx2 ∨ cpu.sse41 then fixedRound else fixedFloor) (2 ^ into.bitDepth - 1) (qv.bound i).size
              (fun k => qv.weight i k))
            (fun i => (qh.bound i).start)
            (fun i => fixedRound (2 ^ into.bitDepth - 1) (qh.bound i).size (fun k => qh.weight i k))
            (fun y x => pxD 0 store.buffer (store.strideOf N) N y x c) y x) := by
  obtain ⟨qv, qh, out, tv, th, Tv, Th, o1, _, _, o4⟩ := u16X86_values h cpu fma fused
  have hN := h.call.channels.1
  refine ⟨qv, qh, out, tv, th, o1, fun y x c hy hx hc => ?_⟩
  rw [o4 y x c hy hx hc]
  congr 1
  have pos : ∀ x', x' < store.width → x' * N + c < store.width * N := by
    intro x' hx'
    have := Nat.mul_le_mul_right N (show x' + 1 ≤ store.width from hx')
    rw [Nat.add_mul] at this; omega
  have hcol : ∀ x', x' < store.width →
      (if store.height = into.height then rowPos 0 store.buffer (store.strideOf N) y (x' * N + c)
        else vLb cpu (2 ^ into.bitDepth - 1) (store.width * N) qv y (x' * N + c) (rowPos 0 store.buffer (store.strideOf N))) =
      (if store.height = into.height then pxD 0 store.buffer (store.strideOf N) N y x' c
        else (if cpu.avx2 ∨ cpu.sse41 then fixedRound else fixedFloor) (2 ^ into.bitDepth - 1) (qv.bound y).size
          (fun k => qv.weight y k) (fun k => pxD 0 store.buffer (store.strideOf N) N ((qv.bound y).start + k) x' c)) := by
    intro x' hx'
    by_cases hh : store.height = into.height
    · rw [if_pos hh, if_pos hh, rowPos_pxD]
    · rw [if_neg hh, if_neg hh]
      unfold vLb
      by_cases hs : cpu.avx2 = true ∨ cpu.sse41 = true
      · rw [if_pos hs, if_pos hs]
        have hr : readColumn (groupOf cpu) (store.width * N) (x' * N + c) = x' * N + c := by
          have hn' : store.width * N % 32 = 0 ∨ store.width * N ≤ 4 ∨ store.width * N = 8 := by
            rcases hn with hn | hn | hn
            · exact absurd hn hh
            · rw [hn.1, hn.2] at hs; simp at hs
            · exact hn
          unfold groupOf
          split_ifs
          · exact (readColumn32 _).2 (by omega) _ (pos x' hx')
          · exact (readColumn16 _).2 (by omega) _ (pos x' hx')
        rw [hr]
        simp only [rowPos_pxD]
      · rw [if_neg hs, if_neg hs]
        simp only [rowPos_pxD]
  unfold sepFun separable
  dsimp only
  by_cases hw : store.width = into.width
  · rw [if_pos hw, if_pos hw]
    exact hcol x (by omega)
  · rw [if_neg hw, if_neg hw]
    unfold hLb
    refine fixedRound_congr (fun _ _ => rfl) fun k hk => hcol _ ?_
    have := Th.inside x hx
    omega

example : ∃ out, genericResize (2 ^ 64) 4 (formatU16X86 ⟨true, true⟩ true true 4) demoLib .bilinear (Demo.usrc 10)
    (Demo.udst 10) = some (.ok (), out) := by
  obtain ⟨_, _, out, _, _, o1, _⟩ := C84_channels_partial Demo.ulb ⟨true, true⟩ true true (Or.inr (Or.inr (Or.inl rfl)))
  exact ⟨out, o1⟩

/-- **C84 fails**: channels mix. Halving the height of a 10-bit RGB image of three columns, blue of the
last pixel is taken from red of the first. -/
theorem C84_violated :
    genericResize (2 ^ 64) 3 (formatU16X86 ⟨true, true⟩ false false 3) demoLib .bilinear
      ⟨[1000, 0, 0, 1000, 0, 0, 1000, 0, 0, 1000, 0, 0, 1000, 0, 0, 1000, 0, 0], 3, 3, 2, 9, 10⟩
      ⟨List.replicate 9 5, 3, 3, 1, 9, 10⟩ =
      some (.ok (), ⟨[1000, 0, 0, 1000, 0, 0, 1000, 0, 1000], 3, 3, 1, 9, 10⟩) := by
  decide +kernel

end PicScale
