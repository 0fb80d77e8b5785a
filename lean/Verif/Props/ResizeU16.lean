import Verif.Props.Floating
import Verif.Lemmas.ResizeGeneral

/-!
Property theorems about whole resizes of u16 images: C21, C22, C23 for 16-bit storage, C48 (accuracy of
the deep formats).
-/

namespace PicScale

open Spec Finset

/-! ### the passes of the u16 formats -/

/-- Value of one pass into a `d`-bit u16 image, vertical direction. Deeper than 12 bits: the binary32
left-to-right sum, rounded up and clamped; else the fixed point sum, truncated and clamped. -/
def v16 (fused : Bool) (d : ℕ) (fw : FilterWeights ℚ) (i : ℕ) (p : ℕ → ℕ) : ℕ :=
  if 12 < d then
    ceilClamp d (leftSum (fun a b => F32.rnd (a * b)) (mlaf F32.rnd fused) (fun k => (p k : ℚ))
      (fun k => fw.weight i k) (fw.bound i).size)
  else
    fixedFloor (2 ^ d - 1) (fw.bound i).size (fun k => (numericalApproximation F32.rnd fw).weight i k) p

/-- The same, horizontal direction: the fixed point sum is rounded to nearest. -/
def h16 (fused : Bool) (d : ℕ) (fw : FilterWeights ℚ) (i : ℕ) (p : ℕ → ℕ) : ℕ :=
  if 12 < d then
    ceilClamp d (leftSum (fun a b => F32.rnd (a * b)) (mlaf F32.rnd fused) (fun k => (p k : ℚ))
      (fun k => fw.weight i k) (fw.bound i).size)
  else
    fixedRound (2 ^ d - 1) (fw.bound i).size (fun k => (numericalApproximation F32.rnd fw).weight i k) p

theorem toMixedU16_eq (d : ℕ) (v : ℚ) : toMixedU16 d v = ceilClamp d v := by
  unfold toMixedU16 ceilClamp
  congr 1
  omega

theorem ceilClamp_le (d : ℕ) (v : ℚ) : ceilClamp d v ≤ 2 ^ d - 1 := by
  unfold ceilClamp; omega

theorem na_bound (fw : FilterWeights ℚ) (i : ℕ) :
    (numericalApproximation F32.rnd fw).bound i = fw.bound i := rfl

theorem v16_le (fused : Bool) (d : ℕ) (fw : FilterWeights ℚ) (i : ℕ) (p : ℕ → ℕ) : v16 fused d fw i p ≤ 2 ^ d - 1 := by
  unfold v16; split_ifs
  · exact ceilClamp_le _ _
  · exact clamp_le _ _

theorem h16_le (fused : Bool) (d : ℕ) (fw : FilterWeights ℚ) (i : ℕ) (p : ℕ → ℕ) : h16 fused d fw i p ≤ 2 ^ d - 1 := by
  unfold h16; split_ifs
  · exact ceilClamp_le _ _
  · exact clamp_le _ _

theorem passOK_u16 {N : ℕ} (hN : 1 ≤ N ∧ N ≤ 4) (fused : Bool) (d : ℕ) :
    PassOK N (formatU16 fused N) d (fun v => d ≤ 12 → v ≤ 2 ^ d - 1)
      (fun fw out => PlainShape fw out ∧ (d ≤ 12 → NoOverflow (numericalApproximation F32.rnd fw) out (2 ^ d - 1)))
      (fun fw => v16 fused d fw) (fun fw => h16 fused d fw) := by
  constructor
  · intro src dst fw hs hd hw hdw hbd hT hO hg
    simp only [formatU16, hbd]
    by_cases h12 : 12 < d
    · rw [if_pos h12]
      obtain ⟨out, o1, o2, o3, o4⟩ := C45_vertical (u16Ops F32.rnd fused d) 0 (mlaf_law rnd_rnd fused) hN.1 hs hd hw hdw hT
      refine ⟨out, o1, o2, o3, fun y x c hy hx hc => ?_⟩
      rw [o4 y x c hy hx hc]
      simp only [v16, if_pos h12, u16Ops, toMixedU16_eq]
    · rw [if_neg h12]
      obtain ⟨out, o1, o2, o3, o4⟩ := C19_vertical_pass (hi := 2 ^ d - 1) hN.1 hs hd hw hdw (hO.1.q_valid hT)
        (fun v hv => hg v hv (by omega)) (hO.2 (by omega))
      refine ⟨out, o1, o2, o3, fun y x c hy hx hc => ?_⟩
      rw [o4 y x c hy hx hc]
      simp only [v16, if_neg h12]
      rfl
  · intro src dst fw hs hd hh hsw hdw hbd hT hO hg
    simp only [formatU16, hbd]
    by_cases h12 : 12 < d
    · rw [if_pos h12]
      obtain ⟨out, o1, o2, o3, o4⟩ := C45_horizontal (u16Ops F32.rnd fused d) 0 (mlaf_law rnd_rnd fused) hN hs hd hh hsw hdw hT
      refine ⟨out, o1, o2, o3, fun y x c hy hx hc => ?_⟩
      rw [o4 y x c hy hx hc]
      simp only [h16, if_pos h12, u16Ops, toMixedU16_eq]
    · rw [if_neg h12]
      obtain ⟨out, o1, o2, o3, o4⟩ := C18_horizontal_pass (hi := 2 ^ d - 1) hN hs hd hh hsw hdw (hO.1.q_valid hT)
        (fun v hv => hg v hv (by omega)) (hO.2 (by omega))
      refine ⟨out, o1, o2, o3, fun y x c hy hx hc => ?_⟩
      rw [o4 y x c hy hx hc]
      simp only [h16, if_neg h12]
      rfl
  · intro fw i p _; exact v16_le _ _ _ _ _
  · intro fw i p p' hn h
    simp only [v16, fixedFloor]
    split_ifs
    · congr 1
      exact leftSum_congr hn (fun k hk => by rw [h k hk]) (fun _ _ => rfl)
    · congr 2
      exact wsum_congr (fun _ _ => rfl) fun k hk => by rw [h k hk]
  · intro fw i p p' hn h
    simp only [h16, fixedRound]
    split_ifs
    · congr 1
      exact leftSum_congr hn (fun k hk => by rw [h k hk]) (fun _ _ => rfl)
    · congr 2
      exact wsum_congr (fun _ _ => rfl) fun k hk => by rw [h k hk]

/-! ### whole resizes -/

/-- What a u16 resize into `d`-bit images needs of a sample. -/
def good16 (d v : ℕ) : Prop := d ≤ 12 → v ≤ 2 ^ d - 1
/-- What a u16 resize into `d`-bit images needs of a table: up to 12 bits, no `i32` overflow. -/
def okT16 (d : ℕ) (fw : FilterWeights ℚ) (out : ℕ) : Prop :=
  PlainShape fw out ∧ (d ≤ 12 → NoOverflow (numericalApproximation F32.rnd fw) out (2 ^ d - 1))

/-- **C21 (u16).** An accepted resize of u16 images succeeds for every bit depth of the destination;
every sample is the horizontal pass value of the vertical pass values of the same channel (`v16`, `h16`:
fixed point up to 12 bits, binary32 sums rounded up beyond), only the dimensions that change are
filtered, and padding is kept. -/
theorem C21_separable_u16 (fused : Bool) {W N : ℕ} {L : Lib} {r : ResamplingFunction} {store into : Image ℕ}
    (h : AcceptedBy W N (formatU16 fused N) (good16 into.bitDepth) (okT16 into.bitDepth) L r store into) :
    ∃ vf hf out, tableOf L r store.height into.height = some vf ∧ tableOf L r store.width into.width = some hf ∧
      ValidTable vf store.height into.height ∧ ValidTable hf store.width into.width ∧
      genericResize W N (formatU16 fused N) L r store into = some (.ok (), out) ∧
      SameShape out into ∧ PaddingKept N into out ∧
      ∀ y x c, y < into.height → x < into.width → c < N →
        sample out.buffer (into.strideOf N) N y x c = some
          (separable store.width store.height into.width into.height
            (fun i => (vf.bound i).start) (v16 fused into.bitDepth vf)
            (fun i => (hf.bound i).start) (h16 fused into.bitDepth hf)
            (fun y x => pxD 0 store.buffer (store.strideOf N) N y x c) y x) :=
  resize_general (passOK_u16 h.channels fused into.bitDepth) h rfl

/-- **C25 (u16).** Channels of u16 images do not mix, for every depth. -/
theorem C25_channels_independent_u16 (fused : Bool) {W N N' : ℕ} {L : Lib} {r : ResamplingFunction}
    {store into store' into' out out' : Image ℕ} {c c' : ℕ}
    (h : AcceptedBy W N (formatU16 fused N) (good16 into.bitDepth) (okT16 into.bitDepth) L r store into)
    (h' : AcceptedBy W N' (formatU16 fused N') (good16 into.bitDepth) (okT16 into.bitDepth) L r store' into')
    (hd : into'.bitDepth = into.bitDepth) (hc : c < N) (hc' : c' < N')
    (hsz : store.width = store'.width ∧ store.height = store'.height)
    (hdz : into.width = into'.width ∧ into.height = into'.height)
    (hp : ∀ y x, y < store.height → x < store.width →
      sample store.buffer (store.strideOf N) N y x c = sample store'.buffer (store'.strideOf N') N' y x c')
    (ho : genericResize W N (formatU16 fused N) L r store into = some (.ok (), out))
    (ho' : genericResize W N' (formatU16 fused N') L r store' into' = some (.ok (), out')) :
    ∀ y x, y < into.height → x < into.width →
      sample out.buffer (into.strideOf N) N y x c = sample out'.buffer (into'.strideOf N') N' y x c' :=
  channels_general (passOK_u16 h.channels fused into.bitDepth) (passOK_u16 h'.channels fused into.bitDepth) rfl
    h h' rfl hd hc hc' hsz hdz hp ho ho'

/-- **C26 (u16).** An output pixel depends only on the source pixels in its window. -/
theorem C26_locality_u16 (fused : Bool) {W N : ℕ} {L : Lib} {r : ResamplingFunction}
    {store store' into out out' : Image ℕ} {vf hf : FilterWeights ℚ} {y x : ℕ}
    (h : AcceptedBy W N (formatU16 fused N) (good16 into.bitDepth) (okT16 into.bitDepth) L r store into)
    (h' : AcceptedBy W N (formatU16 fused N) (good16 into.bitDepth) (okT16 into.bitDepth) L r store' into)
    (hsz : store.width = store'.width ∧ store.height = store'.height)
    (tv : tableOf L r store.height into.height = some vf) (th : tableOf L r store.width into.width = some hf)
    (hy : y < into.height) (hx : x < into.width)
    (hp : ∀ y' x' c,
      (if store.height = into.height then y' = y
        else (vf.bound y).start ≤ y' ∧ y' < (vf.bound y).start + (vf.bound y).size) →
      (if store.width = into.width then x' = x
        else (hf.bound x).start ≤ x' ∧ x' < (hf.bound x).start + (hf.bound x).size) → c < N →
      sample store.buffer (store.strideOf N) N y' x' c = sample store'.buffer (store'.strideOf N) N y' x' c)
    (ho : genericResize W N (formatU16 fused N) L r store into = some (.ok (), out))
    (ho' : genericResize W N (formatU16 fused N) L r store' into = some (.ok (), out')) :
    ∀ c, c < N →
      sample out.buffer (into.strideOf N) N y x c = sample out'.buffer (into.strideOf N) N y x c :=
  locality_general (passOK_u16 h.channels fused into.bitDepth) h h' rfl hsz tv th hy hx hp ho ho'

/-- **C25 (f32).** Channels of f32 images do not mix, for every float arithmetic. -/
theorem C25_channels_independent_f32 {S A : Type} (o : FloatOps S A) (d0 : S)
    (law : ∀ a b, o.mla o.zero a b = o.mul a b) {W N N' : ℕ} {L : Lib} {r : ResamplingFunction}
    {store into store' into' out out' : Image S} {c c' : ℕ}
    (h : AcceptedBy W N (formatFloat o d0 N) (fun _ => True) (fun _ _ => True) L r store into)
    (h' : AcceptedBy W N' (formatFloat o d0 N') (fun _ => True) (fun _ _ => True) L r store' into')
    (hd : into'.bitDepth = into.bitDepth) (hc : c < N) (hc' : c' < N')
    (hsz : store.width = store'.width ∧ store.height = store'.height)
    (hdz : into.width = into'.width ∧ into.height = into'.height)
    (hp : ∀ y x, y < store.height → x < store.width →
      sample store.buffer (store.strideOf N) N y x c = sample store'.buffer (store'.strideOf N') N' y x c')
    (ho : genericResize W N (formatFloat o d0 N) L r store into = some (.ok (), out))
    (ho' : genericResize W N' (formatFloat o d0 N') L r store' into' = some (.ok (), out')) :
    ∀ y x, y < into.height → x < into.width →
      sample out.buffer (into.strideOf N) N y x c = sample out'.buffer (into'.strideOf N') N' y x c' :=
  channels_general (passOK_float o d0 law h.channels into.bitDepth) (passOK_float o d0 law h'.channels into.bitDepth)
    rfl h h' rfl hd hc hc' hsz hdz hp ho ho'

/-- **C26 (f32).** An output pixel depends only on the source pixels in its window. -/
theorem C26_locality_f32 {S A : Type} (o : FloatOps S A) (d0 : S)
    (law : ∀ a b, o.mla o.zero a b = o.mul a b) {W N : ℕ} {L : Lib} {r : ResamplingFunction}
    {store store' into out out' : Image S} {vf hf : FilterWeights ℚ} {y x : ℕ}
    (h : AcceptedBy W N (formatFloat o d0 N) (fun _ => True) (fun _ _ => True) L r store into)
    (h' : AcceptedBy W N (formatFloat o d0 N) (fun _ => True) (fun _ _ => True) L r store' into)
    (hsz : store.width = store'.width ∧ store.height = store'.height)
    (tv : tableOf L r store.height into.height = some vf) (th : tableOf L r store.width into.width = some hf)
    (hy : y < into.height) (hx : x < into.width)
    (hp : ∀ y' x' c,
      (if store.height = into.height then y' = y
        else (vf.bound y).start ≤ y' ∧ y' < (vf.bound y).start + (vf.bound y).size) →
      (if store.width = into.width then x' = x
        else (hf.bound x).start ≤ x' ∧ x' < (hf.bound x).start + (hf.bound x).size) → c < N →
      sample store.buffer (store.strideOf N) N y' x' c = sample store'.buffer (store'.strideOf N) N y' x' c)
    (ho : genericResize W N (formatFloat o d0 N) L r store into = some (.ok (), out))
    (ho' : genericResize W N (formatFloat o d0 N) L r store' into = some (.ok (), out')) :
    ∀ c, c < N →
      sample out.buffer (into.strideOf N) N y x c = sample out'.buffer (into.strideOf N) N y x c :=
  locality_general (passOK_float o d0 law h.channels into.bitDepth) h h' rfl hsz tv th hy hx hp ho ho'

/-! ### no panic and range for arbitrary samples -/

/-- The passes with wrapping accumulators: no assumption on samples or weights. -/
theorem passOK_u16_raw {N : ℕ} (hN : 1 ≤ N ∧ N ≤ 4) (fused : Bool) (d : ℕ) :
    PassOK N (formatU16 fused N) d (fun _ => True) (fun fw out => PlainShape fw out)
      (fun fw i p => if 12 < d then v16 fused d fw i p else
        saturateNarrow (2 ^ d - 1) (i32 (wsum (fw.bound i).size
          (fun k => (numericalApproximation F32.rnd fw).weight i k) (fun k => (p k : ℤ)))))
      (fun fw i p => if 12 < d then h16 fused d fw i p else
        saturateNarrow (2 ^ d - 1) (i32 (16384 + wsum (fw.bound i).size
          (fun k => (numericalApproximation F32.rnd fw).weight i k) (fun k => (p k : ℤ))))) := by
  constructor
  · intro src dst fw hs hd hw hdw hbd hT hO _
    by_cases h12 : 12 < d
    · obtain ⟨out, o1, o2, o3, o4⟩ := (passOK_u16 hN fused d).vertical src dst fw hs hd hw hdw hbd hT
        ⟨hO, by omega⟩ (fun v _ => by omega)
      exact ⟨out, o1, o2, o3, fun y x c hy hx hc => by rw [o4 y x c hy hx hc, if_pos h12]⟩
    · simp only [formatU16, hbd]
      simp only [if_neg h12]
      obtain ⟨b, h1, h2, h3, h4⟩ := verticalFixed_raw (hi := 2 ^ d - 1) hN.1 hs hd hw hdw (hO.q_valid (ρ := F32.rnd) hT)
      exact ⟨_, h1, ⟨rfl, rfl, rfl, rfl, rfl, h2⟩, paddingKept_of hN.1 hd h2 h4, fun y x c hy hx hc => h3 y x c hy hx hc⟩
  · intro src dst fw hs hd hh hsw hdw hbd hT hO _
    by_cases h12 : 12 < d
    · obtain ⟨out, o1, o2, o3, o4⟩ := (passOK_u16 hN fused d).horizontal src dst fw hs hd hh hsw hdw hbd hT
        ⟨hO, by omega⟩ (fun v _ => by omega)
      exact ⟨out, o1, o2, o3, fun y x c hy hx hc => by rw [o4 y x c hy hx hc, if_pos h12]⟩
    · simp only [formatU16, hbd]
      simp only [if_neg h12]
      obtain ⟨b, h1, h2, h3, h4⟩ := horizontalFixed_raw (hi := 2 ^ d - 1) hN hs hd hh hsw hdw (hO.q_valid (ρ := F32.rnd) hT)
      exact ⟨_, h1, ⟨rfl, rfl, rfl, rfl, rfl, h2⟩, paddingKept_of hN.1 hd h2 h4, fun y x c hy hx hc => h3 y x c hy hx hc⟩
  · intro _ _ _; trivial
  · intro fw i p p' hn h
    split_ifs with h12
    · exact (passOK_u16 hN fused d).cong_v fw i p p' hn h
    · congr 2
      exact wsum_congr (fun _ _ => rfl) fun k hk => by rw [h k hk]
  · intro fw i p p' hn h
    split_ifs with h12
    · exact (passOK_u16 hN fused d).cong_h fw i p p' hn h
    · congr 3
      exact wsum_congr (fun _ _ => rfl) fun k hk => by rw [h k hk]

theorem saturateNarrow_le (hi : ℕ) (v : ℤ) : saturateNarrow hi v ≤ hi := by
  rw [saturateNarrow_floor]; exact clamp_le _ _

/-- **C22, C23 (u16).** An accepted u16 convolution resize never panics, keeps the padding, and writes
only samples within the destination's bit depth — whatever the source samples (also out-of-range ones)
and even if accumulators wrap. -/
theorem C23_resize_range_u16 (fused : Bool) {W N : ℕ} {L : Lib} {r : ResamplingFunction} {store into : Image ℕ}
    (h : AcceptedBy W N (formatU16 fused N) (fun _ => True) (fun _ _ => True) L r store into) :
    ∃ out, genericResize W N (formatU16 fused N) L r store into = some (.ok (), out) ∧
      SameShape out into ∧ PaddingKept N into out ∧
      ∀ y x c, y < into.height → x < into.width → c < N →
        ∃ v, sample out.buffer (into.strideOf N) N y x c = some v ∧ v ≤ 2 ^ into.bitDepth - 1 := by
  have h' : AcceptedBy W N (formatU16 fused N) (fun _ => True) (fun fw out => PlainShape fw out) L r store into :=
    { h with tables := ⟨fun _ _ s => s, fun _ _ s => s⟩ }
  obtain ⟨vf, hf, out, _, _, _, _, o1, o2, o3, o4⟩ := resize_general (passOK_u16_raw h.channels fused into.bitDepth) h' rfl
  refine ⟨out, o1, o2, o3, fun y x c hy hx hc => ⟨_, o4 y x c hy hx hc, ?_⟩⟩
  have hv : ∀ fw i p, (if 12 < into.bitDepth then v16 fused into.bitDepth fw i p else
        saturateNarrow (2 ^ into.bitDepth - 1) (i32 (wsum (fw.bound i).size
          (fun k => (numericalApproximation F32.rnd fw).weight i k) (fun k => (p k : ℤ))))) ≤ 2 ^ into.bitDepth - 1 := by
    intro fw i p; split_ifs
    · exact v16_le _ _ _ _ _
    · exact saturateNarrow_le _ _
  have hh : ∀ fw i p, (if 12 < into.bitDepth then h16 fused into.bitDepth fw i p else
        saturateNarrow (2 ^ into.bitDepth - 1) (i32 (16384 + wsum (fw.bound i).size
          (fun k => (numericalApproximation F32.rnd fw).weight i k) (fun k => (p k : ℤ))))) ≤ 2 ^ into.bitDepth - 1 := by
    intro fw i p; split_ifs
    · exact h16_le _ _ _ _ _
    · exact saturateNarrow_le _ _
  rcases h.sizes with hs | hs
  · simp only [separable, if_neg hs]
    exact hh _ _ _
  · simp only [separable, if_neg hs]
    by_cases h1 : store.width = into.width
    · rw [if_pos h1]; exact hv _ _ _
    · rw [if_neg h1]; exact hh _ _ _

/-- A 16-bit and a 10-bit image, both padded; for the 10-bit destination most samples are out of range. -/
def Demo.src16 : Image ℕ :=
  { buffer := [0, 65535, 1000, 77, 30000, 65535, 1, 77, 0, 0, 9, 77], channels := 1, width := 3, height := 3, stride := 4, bitDepth := 16 }
def Demo.dst16 (d : ℕ) : Image ℕ :=
  { buffer := List.replicate 12 5, channels := 1, width := 5, height := 2, stride := 6, bitDepth := d }

theorem Demo.accepted16 (fused : Bool) (d : ℕ) (hd : d = 10 ∨ d = 16) :
    AcceptedBy (2 ^ 64) 1 (formatU16 fused 1) (fun _ => True) (fun _ _ => True) demoLib .lanczos3 Demo.src16 (Demo.dst16 d) := by
  constructor
  · decide
  · rcases hd with rfl | rfl <;> cases fused <;> decide +kernel
  · decide
  · simp [Demo.src16, Demo.dst16]
  · decide
  · simp
  · simp [Demo.src16, Demo.dst16]
  · exact fun _ _ => trivial
  · exact ⟨fun _ _ _ => trivial, fun _ _ _ => trivial⟩

example : ∃ out, genericResize (2 ^ 64) 1 (formatU16 true 1) demoLib .lanczos3 Demo.src16 (Demo.dst16 10) =
    some (.ok (), out) ∧ ∃ v, sample out.buffer 6 1 1 4 0 = some v ∧ v ≤ 1023 := by
  obtain ⟨out, o1, _, _, o4⟩ := C23_resize_range_u16 true (Demo.accepted16 true 10 (by simp))
  exact ⟨out, o1, o4 1 4 0 (by decide) (by decide) (by decide)⟩

/-- Depth 16 satisfies the hypotheses of the exact theorem as well (nothing is needed beyond 12 bits). -/
example : ∃ out, genericResize (2 ^ 64) 1 (formatU16 true 1) demoLib .lanczos3 Demo.src16 (Demo.dst16 16) =
    some (.ok (), out) ∧ PaddingKept 1 (Demo.dst16 16) out := by
  have h := Demo.accepted16 true 16 (by simp)
  obtain ⟨_, _, out, _, _, _, _, o1, _, o3, _⟩ := C21_separable_u16 true (W := 2 ^ 64) (N := 1) (L := demoLib)
    (r := .lanczos3) (store := Demo.src16) (into := Demo.dst16 16)
    { h with samples := fun v _ h => absurd h (by decide)
             tables := ⟨fun _ _ s => ⟨s, fun h => absurd h (by decide)⟩, fun _ _ s => ⟨s, fun h => absurd h (by decide)⟩⟩ }
  exact ⟨out, o1, o3⟩

end PicScale
