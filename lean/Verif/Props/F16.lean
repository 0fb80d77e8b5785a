import Verif.Lemmas.F16Value
import Verif.Props.X86F32

/-!
Property theorems about resizes of 16-bit floating point images: C119–C124.
-/

namespace PicScale

open Spec Finset

variable {H A : Type}

/-- A padded source of halves (patterns) and a padded destination. -/
def Demo.hx (N w h : ℕ) : Image ℕ :=
  { buffer := (List.range ((N * w + 1) * h)).map fun i => 15360 + 37 * (i % 19), channels := N, width := w, height := h,
    stride := N * w + 1, bitDepth := 0 }
def Demo.hz (N w h : ℕ) : Image ℕ :=
  { buffer := List.replicate ((N * w + 2) * h) 7, channels := N, width := w, height := h, stride := N * w + 2, bitDepth := 0 }

theorem Demo.hcall4 : AcceptedF (2 ^ 64) 4 .bilinear (Demo.hx 4 6 5) (Demo.hz 4 2 3) := by
  constructor <;> decide +kernel
theorem Demo.hcall1 : AcceptedF (2 ^ 64) 1 .bilinear (Demo.hx 1 6 5) (Demo.hz 1 2 3) := by
  constructor <;> decide +kernel
theorem Demo.hcallV : AcceptedF (2 ^ 64) 1 .bilinear (Demo.hx 1 2 5) (Demo.hz 1 2 3) := by
  constructor <;> decide +kernel
theorem Demo.hcallH : AcceptedF (2 ^ 64) 3 .bilinear (Demo.hx 3 6 3) (Demo.hz 3 2 3) := by
  constructor <;> decide +kernel

/-! ### C119: no out-of-bounds access -/

/-- **C119.** On every x86 CPU (SSE4.1, AVX2, F16C, FMA or none of them) an accepted resize of f16 images with any
number of channels and any samples, for any arithmetic and any conversion, returns normally, reads nothing outside
the buffers and leaves the destination's size, stride and length alone. -/
theorem C119_f16_no_oob {W N : ℕ} {L : Lib} {r : ResamplingFunction} {store into : Image H}
    (h : AcceptedF W N r store into) (cpu : HalfCpu) (o : HalfOps H A) :
    ∃ out, genericResize W N (formatF16 cpu o N) L r store into = some (.ok (), out) ∧ SameShape out into := by
  obtain ⟨_, _, out, _, _, _, _, o1, o2, _⟩ := resize_f16 (L := L) h cpu o
  exact ⟨out, o1, o2⟩

example : ∃ out, genericResize (2 ^ 64) 4 (formatF16 ⟨true, true, true, true, false⟩ F16.halfBits 4) demoLib .bilinear
    (Demo.hx 4 6 5) (Demo.hz 4 2 3) = some (.ok (), out) ∧ SameShape out (Demo.hz 4 2 3) :=
  C119_f16_no_oob Demo.hcall4 _ _

/-! ### C120, C121: bytes outside the pixels -/

/-- **C120.** A resize that keeps the width, and any resize of three- and four-channel f16 images on a CPU with
SSE4.1, writes nothing but pixels: row padding is untouched. -/
theorem C120_f16_padding {W N : ℕ} {L : Lib} {r : ResamplingFunction} {store into : Image H}
    (h : AcceptedF W N r store into) (cpu : HalfCpu) (o : HalfOps H A)
    (hp : store.width = into.width ∨ (3 ≤ N ∧ cpu.sse41 = true) ∨ (N = 4 ∧ cpu.avx2 = true ∧ cpu.f16c = true)) :
    ∃ out, genericResize W N (formatF16 cpu o N) L r store into = some (.ok (), out) ∧ PaddingKept N into out := by
  obtain ⟨_, _, out, _, _, _, _, o1, _, o3, _⟩ := resize_f16 (L := L) h cpu o
  refine ⟨out, o1, ?_⟩
  rw [← paddingMapped_id]
  have hN := h.channels
  by_cases hw : store.width = into.width
  · rwa [if_pos hw] at o3
  · rw [if_neg hw] at o3
    unfold hpadF16 at o3
    rwa [if_pos] at o3
    rcases hp with h1 | h1 | h1
    · exact absurd h1 hw
    · rcases Nat.lt_or_ge 3 N with h2 | h2
      · exact Or.inr (Or.inl ⟨by omega, h1.2⟩)
      · exact Or.inr (Or.inr ⟨by omega, h1.2⟩)
    · exact Or.inl h1

example : ∃ out, genericResize (2 ^ 64) 4 (formatF16 ⟨true, false, false, false, false⟩ F16.halfBits 4) demoLib .bilinear
    (Demo.hx 4 6 5) (Demo.hz 4 2 3) = some (.ok (), out) ∧ PaddingKept 4 (Demo.hz 4 2 3) out :=
  C120_f16_padding Demo.hcall4 _ _ (by decide)
example : ∃ out, genericResize (2 ^ 64) 1 (formatF16 ⟨true, true, true, true, false⟩ F16.halfBits 1) demoLib .bilinear
    (Demo.hx 1 2 5) (Demo.hz 1 2 3) = some (.ok (), out) ∧ PaddingKept 1 (Demo.hz 1 2 3) out :=
  C120_f16_padding Demo.hcallV _ _ (by decide)

/-- **C121 (partial).** Every other f16 resize — one and two channels on every CPU, three and four on CPUs without
SSE4.1 — changes no pixel of another row, but does not leave the padding alone: it fills all padding of the
destination with the half of zero. -/
theorem C121_f16_padding_partial {W N : ℕ} {L : Lib} {r : ResamplingFunction} {store into : Image H}
    (h : AcceptedF W N r store into) (cpu : HalfCpu) (o : HalfOps H A) (hw : store.width ≠ into.width)
    (hp : N ≤ 2 ∨ (cpu.sse41 = false ∧ (cpu.avx2 && cpu.f16c) = false)) :
    ∃ out, genericResize W N (formatF16 cpu o N) L r store into = some (.ok (), out) ∧
      ∀ p, p < into.buffer.length → ¬ IsPixelPos (into.strideOf N) N into.width into.height p →
        out.buffer[p]? = some (o.narrow o.arith.zero) := by
  obtain ⟨_, _, out, _, _, _, _, o1, _, o3, _⟩ := resize_f16 (L := L) h cpu o
  refine ⟨out, o1, fun p hl hpp => ?_⟩
  rw [if_neg hw] at o3
  have := o3 p hpp
  unfold hpadF16 at this
  rw [this, List.getElem?_eq_getElem hl, Option.map_some, if_neg]
  rintro (h1 | h1 | h1)
  · rcases hp with hp | hp
    · omega
    · rw [h1.2.1, h1.2.2] at hp; exact absurd hp.2 (by decide)
  · rcases hp with hp | hp
    · omega
    · rw [h1.2] at hp; exact absurd hp.1 (by decide)
  · rcases hp with hp | hp
    · omega
    · rw [h1.2] at hp; exact absurd hp.1 (by decide)

/-- The padding of a one-channel f16 image is overwritten, on the newest CPU. -/
theorem C121_violated : ∃ out, genericResize (2 ^ 64) 1 (formatF16 ⟨true, true, true, true, false⟩ F16.halfBits 1) demoLib
    .bilinear (Demo.hx 1 6 5) (Demo.hz 1 2 3) = some (.ok (), out) ∧ ¬ PaddingKept 1 (Demo.hz 1 2 3) out := by
  obtain ⟨out, o1, o2⟩ := C121_f16_padding_partial (L := demoLib) Demo.hcall1 ⟨true, true, true, true, false⟩ F16.halfBits
    (by decide) (Or.inl (by decide))
  have hnp : ¬ IsPixelPos ((Demo.hz 1 2 3).strideOf 1) 1 (Demo.hz 1 2 3).width (Demo.hz 1 2 3).height 2 := by
    rintro ⟨y, x, c, h1, h2, h3, h4⟩
    have e : (Demo.hz 1 2 3).strideOf 1 = 4 := by decide
    rw [e] at h4
    have e2 : (Demo.hz 1 2 3).width = 2 := by decide
    rw [e2] at h2
    omega
  refine ⟨out, o1, fun hk => ?_⟩
  have a := o2 2 (by decide) hnp
  have b := hk 2 hnp
  rw [a] at b
  have e : F16.halfBits.narrow F16.halfBits.arith.zero = 0 := by decide +kernel
  rw [e] at b
  exact absurd b (by decide)

/-! ### C122: values -/

/-- **C122.** With binary32 arithmetic and any conversions: every destination sample is the separable resize of its
channel. Each pass widens its samples, adds the products in the order of the CPU (`vOrder`, `hOrder`) with every
operation rounded to binary32, and narrows once; between the passes samples are halves. Both conversions are the
IEEE ones except on CPUs with SSE4.1 and no F16C (vertical passes, and horizontal ones of three and four
channels), which use the fallbacks. -/
theorem C122_f16_value {W N : ℕ} {L : Lib} {r : ResamplingFunction} {store into : Image H}
    (h : AcceptedF W N r store into) (cpu : HalfCpu) (o : HalfOps H ℚ) (ho : o.arith = ratOps) :
    ∃ vf hf out, tableOf L r store.height into.height = some vf ∧ tableOf L r store.width into.width = some hf ∧
      ValidTable vf store.height into.height ∧ ValidTable hf store.width into.width ∧
      genericResize W N (formatF16 cpu o N) L r store into = some (.ok (), out) ∧
      ∀ y x c, y < into.height → x < into.width → c < N →
        sample out.buffer (into.strideOf N) N y x c = some
          (separable store.width store.height into.width into.height
            (fun i => (vf.bound i).start)
            (fun i p => o.narrowX (vIeee cpu) ((vOrder cpu).sum32 (fun k => o.widenX (vIeee cpu) (p k))
              (fun k => vf.weight i k) (vf.bound i).size))
            (fun i => (hf.bound i).start)
            (fun i p => o.narrowX (hIeee cpu N) ((hOrder cpu N).sum32 (fun k => o.widenX (hIeee cpu N) (p k))
              (fun k => hf.weight i k) (hf.bound i).size))
            (fun y x => pxD o.zeroH store.buffer (store.strideOf N) N y x c) y x) := by
  obtain ⟨vf, hf, out, ev, eh, Tv, Th, o1, o2, o3, o4⟩ := resize_f16 (L := L) h cpu o
  refine ⟨vf, hf, out, ev, eh, Tv, Th, o1, fun y x c hy hx hc => ?_⟩
  rw [o4 y x c hy hx hc]
  refine congrArg some ?_
  have hcol : ∀ k, vvF16 cpu o vf y (k * N + c) (rowPos o.zeroH store.buffer (store.strideOf N)) =
      o.narrowX (vIeee cpu) ((vOrder cpu).sum32 (fun j => o.widenX (vIeee cpu)
        (pxD o.zeroH store.buffer (store.strideOf N) N ((vf.bound y).start + j) k c))
        (fun j => vf.weight y j) (vf.bound y).size) := by
    intro k
    rw [vvF16_sum cpu o ho vf y _ _ (Tv.size_pos y hy)]
    simp only [rowPos_pxD]
  unfold sepFun separable
  dsimp only
  by_cases hw : store.width = into.width
  · rw [if_pos hw, if_pos hw]
    by_cases hh : store.height = into.height
    · rw [if_pos hh, if_pos hh, rowPos_pxD]
    · rw [if_neg hh, if_neg hh, hcol]
  · rw [if_neg hw, if_neg hw, hvF16_sum cpu o ho h.channels hf x c _ (Th.size_pos x hx)]
    by_cases hh : store.height = into.height
    · simp only [if_pos hh, rowPos_pxD]
    · simp only [if_neg hh, hcol]

/-- So two CPUs of the same order of sums, both with IEEE conversions, give the same pixels. In particular all CPUs
with F16C and no FMA agree with the portable build that does not fuse, except for four channels with AVX2. -/
theorem C122_f16_cpus {W N : ℕ} {L : Lib} {r : ResamplingFunction} {store into : Image H}
    (h : AcceptedF W N r store into) (cpu cpu' : HalfCpu) (o : HalfOps H ℚ) (ho : o.arith = ratOps)
    (hv : vIeee cpu = vIeee cpu' ∧ vOrder cpu = vOrder cpu') (hh : hIeee cpu N = hIeee cpu' N ∧ hOrder cpu N = hOrder cpu' N) :
    ∃ out out', genericResize W N (formatF16 cpu o N) L r store into = some (.ok (), out) ∧
      genericResize W N (formatF16 cpu' o N) L r store into = some (.ok (), out') ∧
      ∀ y x c, y < into.height → x < into.width → c < N →
        sample out.buffer (into.strideOf N) N y x c = sample out'.buffer (into.strideOf N) N y x c := by
  obtain ⟨vf, hf, out, ev, eh, _, _, o1, o2⟩ := C122_f16_value (L := L) h cpu o ho
  obtain ⟨vf', hf', out', ev', eh', _, _, o1', o2'⟩ := C122_f16_value (L := L) h cpu' o ho
  rw [ev] at ev'
  rw [eh] at eh'
  obtain rfl := Option.some.inj ev'
  obtain rfl := Option.some.inj eh'
  refine ⟨out, out', o1, o1', fun y x c hy hx hc => ?_⟩
  rw [o2 y x c hy hx hc, o2' y x c hy hx hc, hv.1, hv.2, hh.1, hh.2]

example : ∃ out out', genericResize (2 ^ 64) 3 (formatF16 ⟨true, true, true, false, false⟩ F16.halfBits 3) demoLib .bilinear
      (Demo.hx 3 6 3) (Demo.hz 3 2 3) = some (.ok (), out) ∧
    genericResize (2 ^ 64) 3 (formatF16 ⟨false, false, false, false, false⟩ F16.halfBits 3) demoLib .bilinear
      (Demo.hx 3 6 3) (Demo.hz 3 2 3) = some (.ok (), out') ∧
    ∀ y x c, y < 3 → x < 2 → c < 3 → sample out.buffer 8 3 y x c = sample out'.buffer 8 3 y x c :=
  C122_f16_cpus Demo.hcallH _ _ F16.halfBits rfl ⟨rfl, rfl⟩ ⟨rfl, rfl⟩

/-! ### C123: locality -/

/-- **C123.** On every CPU, for any arithmetic and conversions, a destination sample depends only on the source
samples of its channel inside its windows: two sources of the same size that agree there give the same value. -/
theorem C123_f16_locality {W N : ℕ} {L : Lib} {r : ResamplingFunction} {store store' into into' : Image H}
    (h : AcceptedF W N r store into) (h' : AcceptedF W N r store' into') (cpu : HalfCpu) (o : HalfOps H A)
    (hsz : store'.width = store.width ∧ store'.height = store.height)
    (hdz : into'.width = into.width ∧ into'.height = into.height)
    {y x c : ℕ} (hy : y < into.height) (hx : x < into.width) (hc : c < N)
    (hp : ∀ vf hf j k, tableOf L r store.height into.height = some vf → tableOf L r store.width into.width = some hf →
      (if store.height = into.height then j = y else (vf.bound y).start ≤ j ∧ j < (vf.bound y).start + (vf.bound y).size) →
      (if store.width = into.width then k = x else (hf.bound x).start ≤ k ∧ k < (hf.bound x).start + (hf.bound x).size) →
      sample store.buffer (store.strideOf N) N j k c = sample store'.buffer (store'.strideOf N) N j k c) :
    ∃ out out', genericResize W N (formatF16 cpu o N) L r store into = some (.ok (), out) ∧
      genericResize W N (formatF16 cpu o N) L r store' into' = some (.ok (), out') ∧
      sample out.buffer (into.strideOf N) N y x c = sample out'.buffer (into'.strideOf N) N y x c := by
  obtain ⟨vf, hf, out, ev, eh, Tv, Th, o1, _, _, o4⟩ := resize_f16 (L := L) h cpu o
  obtain ⟨vf', hf', out', ev', eh', _, _, o1', _, _, o4'⟩ := resize_f16 (L := L) h' cpu o
  rw [hsz.2, hdz.2, ev] at ev'
  rw [hsz.1, hdz.1, eh] at eh'
  obtain rfl := Option.some.inj ev'
  obtain rfl := Option.some.inj eh'
  refine ⟨out, out', o1, o1', ?_⟩
  rw [o4 y x c hy hx hc, o4' y x c (by omega) (by omega) hc]
  refine congrArg some ?_
  simp only [hsz.1, hsz.2, hdz.1, hdz.2]
  have hcol : ∀ k, (if store.width = into.width then k = x else (hf.bound x).start ≤ k ∧ k < (hf.bound x).start + (hf.bound x).size) →
      (if store.height = into.height then rowPos o.zeroH store.buffer (store.strideOf N) y (k * N + c)
        else vvF16 cpu o vf y (k * N + c) (rowPos o.zeroH store.buffer (store.strideOf N))) =
      (if store.height = into.height then rowPos o.zeroH store'.buffer (store'.strideOf N) y (k * N + c)
        else vvF16 cpu o vf y (k * N + c) (rowPos o.zeroH store'.buffer (store'.strideOf N))) := by
    intro k hk
    by_cases hh : store.height = into.height
    · rw [if_pos hh, if_pos hh, rowPos_pxD, rowPos_pxD]
      unfold pxD
      rw [hp vf hf y k ev eh (by rw [if_pos hh]) hk]
    · rw [if_neg hh, if_neg hh]
      have e : ∀ j, j < (vf.bound y).size → rowPos o.zeroH store.buffer (store.strideOf N) ((vf.bound y).start + j) (k * N + c) =
          rowPos o.zeroH store'.buffer (store'.strideOf N) ((vf.bound y).start + j) (k * N + c) := by
        intro j hj
        rw [rowPos_pxD, rowPos_pxD]
        unfold pxD
        rw [hp vf hf _ k ev eh (by rw [if_neg hh]; omega) hk]
      unfold vvF16
      dsimp only
      split_ifs
      · exact congrArg o.narrow (chain_congr (fun j hj => congrArg o.widen (e j hj)) (fun _ _ => rfl))
      · exact congrArg (o.narrowX cpu.f16c) (chain_congr (fun j hj => congrArg (o.widenX cpu.f16c) (e j hj)) (fun _ _ => rfl))
      · exact congrArg o.narrow (floatVal_congr (fun j hj => congrArg o.widen (e j hj)) (fun _ _ => rfl))
  unfold sepFun
  dsimp only
  by_cases hw : store.width = into.width
  · rw [if_pos hw, if_pos hw]
    exact hcol x (by rw [if_pos hw])
  · rw [if_neg hw, if_neg hw]
    have hn := Th.size_pos x hx
    have e : ∀ k, k < (hf.bound x).size → _ := fun k hk => hcol ((hf.bound x).start + k) (by rw [if_neg hw]; omega)
    unfold hvF16
    dsimp only
    split_ifs
    all_goals first
      | exact congrArg o.narrow (pairSum_congr hn (fun k hk => congrArg o.widen (by simpa [*] using e k hk)) (fun _ _ => rfl))
      | exact congrArg (o.narrowX cpu.f16c) (chain_congr (fun k hk => congrArg (o.widenX cpu.f16c) (by simpa [*] using e k hk)) (fun _ _ => rfl))
      | exact congrArg o.narrow (floatVal_congr (fun k hk => congrArg o.widen (by simpa [*] using e k hk)) (fun _ _ => rfl))

/-- Two pictures that differ in one channel. -/
def Demo.hx' (N w h : ℕ) : Image ℕ := { Demo.hx N w h with
  buffer := (List.range ((N * w + 1) * h)).map fun i => if i % (N * w + 1) % N = 1 then 31744 else 15360 + 37 * (i % 19) }

theorem Demo.hcall4' : AcceptedF (2 ^ 64) 4 .bilinear (Demo.hx' 4 6 5) (Demo.hz 4 2 3) := by
  constructor <;> decide +kernel

example : ∃ out out', genericResize (2 ^ 64) 4 (formatF16 ⟨true, true, true, true, false⟩ F16.halfBits 4) demoLib .bilinear
      (Demo.hx 4 6 5) (Demo.hz 4 2 3) = some (.ok (), out) ∧
    genericResize (2 ^ 64) 4 (formatF16 ⟨true, true, true, true, false⟩ F16.halfBits 4) demoLib .bilinear (Demo.hx' 4 6 5)
      (Demo.hz 4 2 3) = some (.ok (), out') ∧
    sample out.buffer 10 4 1 1 0 = sample out'.buffer 10 4 1 1 0 := by
  refine C123_f16_locality (L := demoLib) Demo.hcall4 Demo.hcall4' _ F16.halfBits (by decide) (by decide)
    (by decide) (by decide) (by decide) ?_
  intro vf hf j k ev eh hj hk
  obtain ⟨vf', hf', _, ev', eh', Tv, Th, _⟩ := resize_f16 (L := demoLib) Demo.hcall4 ⟨true, true, true, true, false⟩ F16.halfBits
  rw [ev] at ev'
  rw [eh] at eh'
  obtain rfl := Option.some.inj ev'
  obtain rfl := Option.some.inj eh'
  rw [if_neg (by decide)] at hj hk
  have h1 : j < 5 := by have := Tv.inside 1 (by decide); exact lt_of_lt_of_le hj.2 this
  have h2 : k < 6 := by have := Th.inside 1 (by decide); exact lt_of_lt_of_le hk.2 this
  have key : ∀ j < 5, ∀ k < 6, sample (Demo.hx 4 6 5).buffer ((Demo.hx 4 6 5).strideOf 4) 4 j k 0 =
      sample (Demo.hx' 4 6 5).buffer ((Demo.hx' 4 6 5).strideOf 4) 4 j k 0 := by decide +kernel
  exact key j h1 k h2

/-! ### C124: accuracy -/

/-- One pass, narrowed: what a half keeps of a weighted sum. `ieee` is whether the pass uses IEEE conversions; the
fallbacks need non-negative samples and weights. -/
theorem pass_err (ieee : Bool) (s : HalfSum) {n : ℕ} (hn : 1 ≤ n) {p : ℕ → ℕ} {w V : ℕ → ℚ} {B e : ℚ}
    (hfin : ∀ k, k < n → FiniteHalf (p k)) (hpos : ieee = true ∨ ∀ k, k < n → 0 ≤ F16.dec (p k) ∧ 0 ≤ w k)
    (hB : ∀ k, k < n → |V k| ≤ B) (he : ∀ k, k < n → |F16.dec (p k) - V k| ≤ e)
    (hlt : |dotSum n V w| + (floatErr n ((∑ k ∈ range n, |w k|) * (B + e)) + (∑ k ∈ range n, |w k|) * e) < 65520) :
    FiniteHalf (F16.halfBits.narrowX ieee (s.sum32 (fun k => F16.halfBits.widenX ieee (p k)) w n)) ∧
    |F16.dec (F16.halfBits.narrowX ieee (s.sum32 (fun k => F16.halfBits.widenX ieee (p k)) w n)) - dotSum n V w| ≤
      (floatErr n ((∑ k ∈ range n, |w k|) * (B + e)) + (∑ k ∈ range n, |w k|) * e) +
        halfErr (|dotSum n V w| + (floatErr n ((∑ k ∈ range n, |w k|) * (B + e)) + (∑ k ∈ range n, |w k|) * e)) ∧
    ((∀ k, k < n → 0 ≤ F16.dec (p k) ∧ 0 ≤ w k) →
      0 ≤ F16.dec (F16.halfBits.narrowX ieee (s.sum32 (fun k => F16.halfBits.widenX ieee (p k)) w n))) := by
  set E := floatErr n ((∑ k ∈ range n, |w k|) * (B + e)) + (∑ k ∈ range n, |w k|) * e with hE
  set q : ℕ → ℚ := fun k => F16.halfBits.widenX ieee (p k) with hq
  have hqd : ∀ k, k < n → q k = F16.dec (p k) := fun k hk => F16.widenX_finite ieee (hfin k hk)
  have hsum : |s.sum32 q w n - dotSum n V w| ≤ E := by
    apply two_pass_err hB (v := q)
    · intro k hk; rw [hqd k hk]; exact he k hk
    · exact near_floatErr (sum32_near s q w hn)
  have habs : |s.sum32 q w n| ≤ |dotSum n V w| + E := by
    have := abs_add_le (s.sum32 q w n - dotSum n V w) (dotSum n V w)
    rw [sub_add_cancel] at this
    linarith
  have hnn : (∀ k, k < n → 0 ≤ F16.dec (p k) ∧ 0 ≤ w k) → 0 ≤ s.sum32 q w n := by
    intro hp
    apply sum32_nonneg s hn
    intro k hk
    rw [hqd k hk]
    exact hp k hk
  obtain ⟨r1, r2, r3⟩ := F16.narrowX_spec ieee (sum32_rep s q w n) (lt_of_le_of_lt habs hlt) (by
    rcases hpos with h | h
    · exact Or.inl h
    · exact Or.inr (hnn h))
  refine ⟨r1, ?_, fun hp => r3 (hnn hp)⟩
  have h1 : halfErr |s.sum32 q w n| ≤ halfErr (|dotSum n V w| + E) := by
    unfold halfErr
    have := div_le_div_of_nonneg_right habs (by positivity : (0 : ℚ) ≤ 2 ^ 11)
    linarith
  have h2 := abs_add_le (F16.dec (F16.halfBits.narrowX ieee (s.sum32 q w n)) - s.sum32 q w n) (s.sum32 q w n - dotSum n V w)
  rw [sub_add_sub_cancel] at h2
  linarith

/-- The samples of a buffer of finite halves. -/
theorem pxD_finite {buf : List ℕ} (hf : ∀ v ∈ buf, FiniteHalf v) (stride N y x c : ℕ) : FiniteHalf (pxD 0 buf stride N y x c) := by
  unfold pxD
  rcases hs : sample buf stride N y x c with _ | v
  · exact ⟨by decide, by decide⟩
  · unfold sample at hs
    exact hf v (List.mem_of_getElem? hs)

theorem pxD_all {buf : List ℕ} {P : ℕ → Prop} (hf : ∀ v ∈ buf, P v) (h0 : P 0) (stride N y x c : ℕ) : P (pxD 0 buf stride N y x c) := by
  unfold pxD
  rcases hs : sample buf stride N y x c with _ | v
  · exact h0
  · unfold sample at hs
    exact hf v (List.mem_of_getElem? hs)

theorem dec_zero : F16.dec 0 = 0 := by norm_num [F16.dec]

/-- **C124 (one dimension).** Resizing f16 images of finite samples in one dimension, any number of channels: every
sample is a finite half within the binary32 error of the exact weighted sum plus half a unit in the last place of a
half, if this stays below 65520. On every CPU with F16C or without SSE4.1; on the others if samples and weights are
not negative. (`M` bounds the magnitudes of the samples.) -/
theorem C124_f16_accuracy_height {W N : ℕ} {L : Lib} {r : ResamplingFunction} {store into : Image ℕ}
    (h : AcceptedF W N r store into) (hw : store.width = into.width) (cpu : HalfCpu)
    (hfin : ∀ v ∈ store.buffer, FiniteHalf v) {M : ℚ} (hM0 : 0 ≤ M) (hM : ∀ v ∈ store.buffer, |F16.dec v| ≤ M) :
    ∃ vf out, tableOf L r store.height into.height = some vf ∧
      genericResize W N (formatF16 cpu F16.halfBits N) L r store into = some (.ok (), out) ∧
      ∀ y x c, y < into.height → x < into.width → c < N →
        let n := (vf.bound y).size
        let S := ∑ j ∈ range n, |vf.weight y j|
        let exact := dotSum n (fun k => F16.dec (pxD 0 store.buffer (store.strideOf N) N ((vf.bound y).start + k) x c))
          (fun k => vf.weight y k)
        (vIeee cpu = true ∨ (∀ v ∈ store.buffer, 0 ≤ F16.dec v) ∧ ∀ k, k < n → 0 ≤ vf.weight y k) →
        |exact| + floatErr n (S * M) < 65520 →
        ∃ v, sample out.buffer (into.strideOf N) N y x c = some v ∧ FiniteHalf v ∧
          |F16.dec v - exact| ≤ floatErr n (S * M) + halfErr (|exact| + floatErr n (S * M)) := by
  obtain ⟨vf, hf, out, ev, _, Tv, _, o1, o4⟩ := C122_f16_value (L := L) h cpu F16.halfBits rfl
  have hne : store.height ≠ into.height := by have := h.sizes; tauto
  refine ⟨vf, out, ev, o1, fun y x c hy hx hc => ?_⟩
  intro n S ex hi hlt
  have hv := o4 y x c hy hx hc
  simp only [separable, if_pos hw, if_neg hne] at hv
  have hz : F16.halfBits.zeroH = 0 := rfl
  rw [hz] at hv
  obtain ⟨r1, r2, _⟩ := pass_err (vIeee cpu) (vOrder cpu) (Tv.size_pos y hy)
    (p := fun k => pxD 0 store.buffer (store.strideOf N) N ((vf.bound y).start + k) x c) (w := fun k => vf.weight y k)
    (V := fun k => F16.dec (pxD 0 store.buffer (store.strideOf N) N ((vf.bound y).start + k) x c)) (B := M) (e := 0)
    (fun k _ => pxD_finite hfin _ _ _ _ _)
    (hi.imp id fun h' k hk => ⟨pxD_all (P := fun v => 0 ≤ F16.dec v) h'.1 (by rw [dec_zero]) _ _ _ _ _, h'.2 k hk⟩)
    (fun k _ => pxD_all (P := fun v => |F16.dec v| ≤ M) hM (by rw [dec_zero, abs_zero]; exact hM0) _ _ _ _ _)
    (fun k _ => by rw [sub_self, abs_zero])
    (by rw [add_zero, mul_zero, add_zero]; exact hlt)
  rw [add_zero, mul_zero, add_zero] at r2
  exact ⟨_, hv, r1, r2⟩

/-- The same for the width. -/
theorem C124_f16_accuracy_width {W N : ℕ} {L : Lib} {r : ResamplingFunction} {store into : Image ℕ}
    (h : AcceptedF W N r store into) (hh : store.height = into.height) (cpu : HalfCpu)
    (hfin : ∀ v ∈ store.buffer, FiniteHalf v) {M : ℚ} (hM0 : 0 ≤ M) (hM : ∀ v ∈ store.buffer, |F16.dec v| ≤ M) :
    ∃ hf out, tableOf L r store.width into.width = some hf ∧
      genericResize W N (formatF16 cpu F16.halfBits N) L r store into = some (.ok (), out) ∧
      ∀ y x c, y < into.height → x < into.width → c < N →
        let n := (hf.bound x).size
        let S := ∑ j ∈ range n, |hf.weight x j|
        let exact := dotSum n (fun k => F16.dec (pxD 0 store.buffer (store.strideOf N) N y ((hf.bound x).start + k) c))
          (fun k => hf.weight x k)
        (hIeee cpu N = true ∨ (∀ v ∈ store.buffer, 0 ≤ F16.dec v) ∧ ∀ k, k < n → 0 ≤ hf.weight x k) →
        |exact| + floatErr n (S * M) < 65520 →
        ∃ v, sample out.buffer (into.strideOf N) N y x c = some v ∧ FiniteHalf v ∧
          |F16.dec v - exact| ≤ floatErr n (S * M) + halfErr (|exact| + floatErr n (S * M)) := by
  obtain ⟨vf, hf, out, _, eh, _, Th, o1, o4⟩ := C122_f16_value (L := L) h cpu F16.halfBits rfl
  have hne : store.width ≠ into.width := by have := h.sizes; tauto
  refine ⟨hf, out, eh, o1, fun y x c hy hx hc => ?_⟩
  intro n S ex hi hlt
  have hv := o4 y x c hy hx hc
  simp only [separable, if_neg hne, if_pos hh] at hv
  have hz : F16.halfBits.zeroH = 0 := rfl
  rw [hz] at hv
  obtain ⟨r1, r2, _⟩ := pass_err (hIeee cpu N) (hOrder cpu N) (Th.size_pos x hx)
    (p := fun k => pxD 0 store.buffer (store.strideOf N) N y ((hf.bound x).start + k) c) (w := fun k => hf.weight x k)
    (V := fun k => F16.dec (pxD 0 store.buffer (store.strideOf N) N y ((hf.bound x).start + k) c)) (B := M) (e := 0)
    (fun k _ => pxD_finite hfin _ _ _ _ _)
    (hi.imp id fun h' k hk => ⟨pxD_all (P := fun v => 0 ≤ F16.dec v) h'.1 (by rw [dec_zero]) _ _ _ _ _, h'.2 k hk⟩)
    (fun k _ => pxD_all (P := fun v => |F16.dec v| ≤ M) hM (by rw [dec_zero, abs_zero]; exact hM0) _ _ _ _ _)
    (fun k _ => by rw [sub_self, abs_zero])
    (by rw [add_zero, mul_zero, add_zero]; exact hlt)
  rw [add_zero, mul_zero, add_zero] at r2
  exact ⟨_, hv, r1, r2⟩

/-- **C124 (both).** Both dimensions: the columns are rounded to halves in between. `e₁` bounds the error of a
column, `e₂` the binary32 error of the row over the inexact columns. -/
theorem C124_f16_accuracy_both {W N : ℕ} {L : Lib} {r : ResamplingFunction} {store into : Image ℕ}
    (h : AcceptedF W N r store into) (hne : store.width ≠ into.width ∧ store.height ≠ into.height) (cpu : HalfCpu)
    (hfin : ∀ v ∈ store.buffer, FiniteHalf v) {M : ℚ} (hM0 : 0 ≤ M) (hM : ∀ v ∈ store.buffer, |F16.dec v| ≤ M) :
    ∃ vf hf out, tableOf L r store.height into.height = some vf ∧ tableOf L r store.width into.width = some hf ∧
      genericResize W N (formatF16 cpu F16.halfBits N) L r store into = some (.ok (), out) ∧
      ∀ y x c, y < into.height → x < into.width → c < N →
        let Sv := ∑ j ∈ range (vf.bound y).size, |vf.weight y j|
        let Sh := ∑ k ∈ range (hf.bound x).size, |hf.weight x k|
        let E₁ := floatErr (vf.bound y).size (Sv * M)
        let e₁ := E₁ + halfErr (Sv * M + E₁)
        let e₂ := floatErr (hf.bound x).size (Sh * (Sv * M + e₁)) + Sh * e₁
        let exact := dotSum (hf.bound x).size (fun k => dotSum (vf.bound y).size
              (fun j => F16.dec (pxD 0 store.buffer (store.strideOf N) N ((vf.bound y).start + j) ((hf.bound x).start + k) c))
              (fun j => vf.weight y j)) (fun k => hf.weight x k)
        (cpu.f16c = true ∨ cpu.sse41 = false ∨ (∀ v ∈ store.buffer, 0 ≤ F16.dec v) ∧
          (∀ j, j < (vf.bound y).size → 0 ≤ vf.weight y j) ∧ ∀ k, k < (hf.bound x).size → 0 ≤ hf.weight x k) →
        Sv * M + E₁ < 65520 → |exact| + e₂ < 65520 →
        ∃ v, sample out.buffer (into.strideOf N) N y x c = some v ∧ FiniteHalf v ∧
          |F16.dec v - exact| ≤ e₂ + halfErr (|exact| + e₂) := by
  obtain ⟨vf, hf, out, ev, eh, Tv, Th, o1, o4⟩ := C122_f16_value (L := L) h cpu F16.halfBits rfl
  refine ⟨vf, hf, out, ev, eh, o1, fun y x c hy hx hc => ?_⟩
  intro Sv Sh E₁ e₁ e₂ ex hi hl1 hl2
  have hv := o4 y x c hy hx hc
  simp only [separable, if_neg hne.1, if_neg hne.2] at hv
  have hz : F16.halfBits.zeroH = 0 := rfl
  rw [hz] at hv
  have hi' : vIeee cpu = true ∧ hIeee cpu N = true ∨ (∀ v ∈ store.buffer, 0 ≤ F16.dec v) ∧
      (∀ j, j < (vf.bound y).size → 0 ≤ vf.weight y j) ∧ ∀ k, k < (hf.bound x).size → 0 ≤ hf.weight x k := by
    rcases hi with h' | h' | h'
    · left; unfold vIeee hIeee; rw [h']; exact ⟨rfl, rfl⟩
    · left; unfold vIeee hIeee; rw [h']; simp
    · exact Or.inr h'
  have hcol := fun k => dotSum_le (n := (vf.bound y).size) (w := fun j => vf.weight y j)
    (p := fun j => F16.dec (pxD 0 store.buffer (store.strideOf N) N ((vf.bound y).start + j) ((hf.bound x).start + k) c)) (M := M)
    (fun j _ => pxD_all (P := fun v => |F16.dec v| ≤ M) hM (by rw [dec_zero, abs_zero]; exact hM0) _ _ _ _ _)
  have col := fun k => pass_err (vIeee cpu) (vOrder cpu) (Tv.size_pos y hy)
    (p := fun j => pxD 0 store.buffer (store.strideOf N) N ((vf.bound y).start + j) ((hf.bound x).start + k) c)
    (w := fun j => vf.weight y j)
    (V := fun j => F16.dec (pxD 0 store.buffer (store.strideOf N) N ((vf.bound y).start + j) ((hf.bound x).start + k) c)) (B := M) (e := 0)
    (fun j _ => pxD_finite hfin _ _ _ _ _)
    (hi'.imp (fun h' => h'.1) fun h' j hj => ⟨pxD_all (P := fun v => 0 ≤ F16.dec v) h'.1 (by rw [dec_zero]) _ _ _ _ _, h'.2.1 j hj⟩)
    (fun j _ => pxD_all (P := fun v => |F16.dec v| ≤ M) hM (by rw [dec_zero, abs_zero]; exact hM0) _ _ _ _ _)
    (fun j _ => by rw [sub_self, abs_zero])
    (by rw [add_zero, mul_zero, add_zero]; exact lt_of_le_of_lt (add_le_add (hcol k).1 le_rfl) hl1)
  simp only [add_zero, mul_zero] at col
  have hE : ∀ k, halfErr (|dotSum (vf.bound y).size (fun j => F16.dec (pxD 0 store.buffer (store.strideOf N) N
      ((vf.bound y).start + j) ((hf.bound x).start + k) c)) (fun j => vf.weight y j)| + E₁) ≤ halfErr (Sv * M + E₁) := by
    intro k
    unfold halfErr
    have := div_le_div_of_nonneg_right (add_le_add (hcol k).1 (le_refl E₁)) (by positivity : (0 : ℚ) ≤ 2 ^ 11)
    linarith
  obtain ⟨r1, r2, _⟩ := pass_err (hIeee cpu N) (hOrder cpu N) (Th.size_pos x hx)
    (p := fun k => F16.halfBits.narrowX (vIeee cpu) ((vOrder cpu).sum32 (fun j => F16.halfBits.widenX (vIeee cpu)
      (pxD 0 store.buffer (store.strideOf N) N ((vf.bound y).start + j) ((hf.bound x).start + k) c))
      (fun j => vf.weight y j) (vf.bound y).size)) (w := fun k => hf.weight x k)
    (V := fun k => dotSum (vf.bound y).size (fun j => F16.dec (pxD 0 store.buffer (store.strideOf N) N
      ((vf.bound y).start + j) ((hf.bound x).start + k) c)) (fun j => vf.weight y j)) (B := Sv * M) (e := e₁)
    (fun k _ => (col k).1)
    (hi'.imp (fun h' => h'.2) fun h' k hk => ⟨(col k).2.2 (fun j hj =>
      ⟨pxD_all (P := fun v => 0 ≤ F16.dec v) h'.1 (by rw [dec_zero]) _ _ _ _ _, h'.2.1 j hj⟩), h'.2.2 k hk⟩)
    (fun k _ => (hcol k).1)
    (fun k _ => le_trans (col k).2.1 (add_le_add le_rfl (hE k)))
    hl2
  exact ⟨_, hv, r1, r2⟩

/-- The conditions can be met: samples between 1 and 3, non-negative. -/
theorem Demo.hx_ok : (∀ v ∈ (Demo.hx 4 6 5).buffer, FiniteHalf v) ∧ ∀ v ∈ (Demo.hx 4 6 5).buffer, 0 ≤ F16.dec v ∧ |F16.dec v| ≤ 3 := by
  unfold FiniteHalf
  decide +kernel

/-- The conditions of `C124_f16_accuracy_both` at pixel (1, 1), channel 0. -/
def Demo.hcond : Bool :=
  match tableOf demoLib .bilinear 5 3, tableOf demoLib .bilinear 6 2 with
  | some vf, some hf =>
    let Sv := ∑ j ∈ range (vf.bound 1).size, |vf.weight 1 j|
    let Sh := ∑ k ∈ range (hf.bound 1).size, |hf.weight 1 k|
    let E₁ := floatErr (vf.bound 1).size (Sv * 3)
    let e₁ := E₁ + halfErr (Sv * 3 + E₁)
    let e₂ := floatErr (hf.bound 1).size (Sh * (Sv * 3 + e₁)) + Sh * e₁
    let exact := dotSum (hf.bound 1).size (fun k => dotSum (vf.bound 1).size
      (fun j => F16.dec (pxD 0 (Demo.hx 4 6 5).buffer ((Demo.hx 4 6 5).strideOf 4) 4 ((vf.bound 1).start + j)
        ((hf.bound 1).start + k) 0)) (fun j => vf.weight 1 j)) (fun k => hf.weight 1 k)
    decide (((∀ j, j < (vf.bound 1).size → 0 ≤ vf.weight 1 j) ∧ ∀ k, k < (hf.bound 1).size → 0 ≤ hf.weight 1 k) ∧
      Sv * 3 + E₁ < 65520 ∧ |exact| + e₂ < 65520 ∧ e₂ + halfErr (|exact| + e₂) < 1 / 100)
  | _, _ => false

theorem Demo.hcond_ok : Demo.hcond = true := by decide +kernel

/-- A destination sample of a CPU with SSE4.1 and nothing else, to within a hundredth. -/
example : ∃ vf hf out, tableOf demoLib .bilinear 5 3 = some vf ∧ tableOf demoLib .bilinear 6 2 = some hf ∧
    genericResize (2 ^ 64) 4 (formatF16 ⟨true, false, false, false, false⟩ F16.halfBits 4) demoLib .bilinear
      (Demo.hx 4 6 5) (Demo.hz 4 2 3) = some (.ok (), out) ∧
    ∃ v, sample out.buffer 10 4 1 1 0 = some v ∧ |F16.dec v - dotSum (hf.bound 1).size (fun k => dotSum (vf.bound 1).size
      (fun j => F16.dec (pxD 0 (Demo.hx 4 6 5).buffer ((Demo.hx 4 6 5).strideOf 4) 4 ((vf.bound 1).start + j)
        ((hf.bound 1).start + k) 0)) (fun j => vf.weight 1 j)) (fun k => hf.weight 1 k)| < 1 / 100 := by
  obtain ⟨vf, hf, out, ev, eh, o1, o2⟩ := C124_f16_accuracy_both (L := demoLib) Demo.hcall4 (by decide)
    ⟨true, false, false, false, false⟩ Demo.hx_ok.1 (M := 3) (by norm_num) (fun v hv => (Demo.hx_ok.2 v hv).2)
  have ev' : tableOf demoLib .bilinear 5 3 = some vf := ev
  have eh' : tableOf demoLib .bilinear 6 2 = some hf := eh
  have hc := Demo.hcond_ok
  unfold Demo.hcond at hc
  rw [ev', eh'] at hc
  have hc := of_decide_eq_true hc
  refine ⟨vf, hf, out, ev', eh', o1, ?_⟩
  obtain ⟨v, v1, _, v3⟩ := o2 1 1 0 (by decide) (by decide) (by decide)
    (Or.inr (Or.inr ⟨fun v hv => (Demo.hx_ok.2 v hv).1, hc.1⟩)) hc.2.1 hc.2.2.1
  exact ⟨v, v1, lt_of_le_of_lt v3 hc.2.2.2⟩

/-- How large the error is: with four taps per pass, weights of sum 1 and samples up to 1, both passes together stay
within `11 / 10^4`: about 1.1 units of the last place of a half below 1. -/
example : let E₁ := floatErr 4 1
    let e₁ := E₁ + halfErr (1 + E₁)
    let e₂ := floatErr 4 (1 + e₁) + e₁
    e₂ + halfErr (1 + e₂) < 11 / 10 ^ 4 := by
  norm_num [floatErr, halfErr]

end PicScale
