import Verif.Lemmas.NeonResize

/-!
Property theorems about 8-bit resizes with the NEON (AArch64) handlers: C138–C146.
-/

namespace PicScale

open Finset Spec

/-! ### C138: the handlers stay inside the buffers -/

theorem total_neon {hk : NeonH} {vk : NeonV} {W N : ℕ} {L : Lib} {r : ResamplingFunction} {store into : Image ℕ}
    (h : AcceptedCall W N r store into) :
    ∃ out, genericResize W N (formatNeonK hk vk N) L r store into = some (.ok (), out) ∧
      SameShape out into ∧ PaddingKept N into out := by
  obtain ⟨c1, c2, c3, _⟩ := checkResize_ok.1 h.checked
  obtain ⟨vf, ev, Tv, Sv⟩ := table_exists L r (out := into.height) c3.2.1 h.small.2 (fun ha => (h.area ha).2)
  obtain ⟨hf', eh, Th, Sh⟩ := table_exists L r (out := into.width) c3.1 h.small.1 (fun ha => (h.area ha).1)
  obtain ⟨out, o1, o2, o3⟩ := convolve_total (W := W) (N := N) (F := formatNeonK hk vk N)
    (okT := fun fw out => PlainShape fw out)
    (fun src dst fw hs hd hw hdw hT hO =>
      verticalNeon_total h.channels.1 hs hd hw hdw (hO.q_valid (ρ := F32.rnd) hT))
    (fun src dst fw hs hd hh hsw hdw hT hO =>
      horizontalNeon_total h.channels hs hd hh hsw hdw (hO.q_valid (ρ := F32.rnd) hT))
    (table := tableOf L r) c2 c1 c3.1 c3.2.2.1 h.sizes h.fits ev eh Tv Th Sv Sh
  exact ⟨out, genericResize_conv h.checked h.filter h.sizes o1, o2, o3⟩

/-- **C138.** On AArch64, with or without the `rdm` extension and with either strategy, an accepted resize
returns `Ok`: no load, store or slice of any NEON handler is outside its buffer (it would be `none` in the
model), whatever the samples and even if accumulators saturate; and nothing outside the destination's
pixels is written. -/
theorem C138_neon_no_oob {rdm : Bool} {s : Workload} {W N : ℕ} {L : Lib} {r : ResamplingFunction}
    {store into : Image ℕ} (h : AcceptedCall W N r store into) :
    ∃ out, genericResize W N (formatNeon rdm s N) L r store into = some (.ok (), out) ∧
      SameShape out into ∧ PaddingKept N into out := by
  rw [genericResize_neon]
  exact total_neon h

example : ∃ out, genericResize (2 ^ 64) 4 (formatNeon true .preferSpeed 4) demoLib .bilinear Demo.xsrc Demo.xdst =
    some (.ok (), out) ∧ out.buffer[20]? = some 9 := by
  obtain ⟨out, h1, h2, h3⟩ := C138_neon_no_oob (rdm := true) (s := .preferSpeed) (L := demoLib) Demo.xcall
  refine ⟨out, h1, ?_⟩
  rw [h3 20 (by rintro ⟨y, x, c, hy, hx, hc, e⟩; simp [Demo.xdst, Image.strideOf] at hy hx e; omega)]
  decide +kernel

/-! ### C139: the values of the 32-bit handlers -/

/-- The handlers with 32-bit accumulators are selected: `PreferQuality`, or no `rdm` extension. -/
def Full32 (rdm : Bool) (s : Workload) : Prop := s = .preferQuality ∨ rdm = false

theorem selectNeonV_full {rdm : Bool} {s : Workload} (h : Full32 rdm s) (a b : ℕ) :
    ∃ D, selectNeonV rdm s a b = .full D := by
  unfold selectNeonV
  cases s
  all_goals
    first
    | exact ⟨true, rfl⟩
    | (rcases h with h | h
       · exact absurd h (by simp)
       · subst h; exact ⟨false, by simp⟩)

theorem selectNeonH_full {rdm : Bool} {s : Workload} (h : Full32 rdm s) {N : ℕ} (hN : 1 ≤ N ∧ N ≤ 4) (h2 : N ≠ 2)
    (a b c d : ℕ) : ∃ D, selectNeonH rdm s N a b c d = .full D := by
  obtain ⟨h1, h4⟩ := hN
  unfold selectNeonH
  interval_cases N <;> cases s <;> simp only
  all_goals
    first
    | exact absurd rfl h2
    | exact ⟨true, rfl⟩
    | (rcases h with h | h
       · exact absurd h (by simp)
       · subst h; exact ⟨false, by simp⟩)

/-- **C139.** RGB and RGBA on AArch64 with the 32-bit handlers: each pass is the fixed point weighted sum of the window
rounded to nearest (halves down) and clamped, for every image whose rows leave a remainder of less than 8 bytes
after blocks of 16, or whose vertical windows do not have exactly three taps, or whose height does not change
(see `C140_violated` for the others). -/
theorem C139_neon_values {rdm : Bool} {s : Workload} {W N : ℕ} {L : Lib} {r : ResamplingFunction}
    {store into : Image ℕ} (h : AcceptedX86 W N L r store into) (hs : Full32 rdm s)
    (hN : 3 ≤ N ∨ (N = 1 ∧ store.width = into.width))
    (h3 : store.height = into.height ∨ store.width * N % 16 < 8 ∨
      ∀ q, IsTable L r store.height into.height q → ∀ y, y < into.height → (q.bound y).size ≠ 3) :
    ∃ qv qh out, IsTable L r store.height into.height qv ∧ IsTable L r store.width into.width qh ∧
      ValidTable qv store.height into.height ∧ ValidTable qh store.width into.width ∧
      genericResize W N (formatNeon rdm s N) L r store into = some (.ok (), out) ∧
      SameShape out into ∧ PaddingKept N into out ∧
      ∀ y x c, y < into.height → x < into.width → c < N →
        sample out.buffer (into.strideOf N) N y x c = some
          (separable store.width store.height into.width into.height
            (fun i => (qv.bound i).start)
            (fun i p => fixedRoundDown (qv.bound i).size (fun k => qv.weight i k) p)
            (fun i => (qh.bound i).start)
            (fun i p => fixedRoundDown (qh.bound i).size (fun k => qh.weight i k) p)
            (fun y x => pxD 0 store.buffer (store.strideOf N) N y x c) y x) := by
  have hn := h.call.channels
  obtain ⟨Dh, eh⟩ := selectNeonH_full hs hn (by omega) store.width into.height into.width into.height
  obtain ⟨Dv, ev⟩ := selectNeonV_full hs store.height into.height
  obtain ⟨qv, qh, out, tv, th, Tv, Th, Wv, Wh, o1, o2, o3, o4⟩ := neon_values (rdm := rdm) (s := s) h
    (by rw [eh]; simp)
  refine ⟨qv, qh, out, tv, th, Tv, Th, o1, o2, o3, fun y x c hy hx hcc => ?_⟩
  rw [o4 y x c hy hx hcc]
  congr 1
  refine sep_of_abs (pxD_byte h.bytes N c) (fun _ _ _ _ => NeonV.value_le _ _ _ _ _ _) ?_ ?_
  · intro hne x' P hP
    rw [ev, NeonV.value_eq hy Wv (h.noOverflow.1 qv tv) (by simp) hP]
    intro j _
    refine NeonV.weightAt_eq ?_ _ _
    rcases h3 with h3 | h3 | h3
    · exact absurd h3 hne
    · exact Or.inr h3
    · exact Or.inl (h3 qv tv y hy)
  · intro hne P hP
    rw [eh]
    show fixedRoundDown (if N = 1 then _ else _) _ _ = _
    rw [if_neg (by rintro rfl; omega)]

theorem accepted_of_taps {W N : ℕ} {L : Lib} {r : ResamplingFunction} {store into : Image ℕ}
    (h : AcceptedCall W N r store into) (hb : ∀ v ∈ store.buffer, v ≤ 255)
    (hv : (tableOf L r store.height into.height).map (fun t => decide (t.kernelSize ≤ 128)) = some true)
    (hh : (tableOf L r store.width into.width).map (fun t => decide (t.kernelSize ≤ 128)) = some true) :
    AcceptedX86 W N L r store into := by
  obtain ⟨_, _, c3, _⟩ := checkResize_ok.1 h.checked
  refine ⟨h, hb, fun q hq => ?_, fun q hq => ?_⟩
  · refine accumFits_of_taps c3.2.1 h.small.2 (fun ha => (h.area ha).2) hq ?_
    obtain ⟨fw, e, rfl⟩ := hq
    rw [e] at hv
    show fw.kernelSize ≤ 128
    simpa using hv
  · refine accumFits_of_taps c3.1 h.small.1 (fun ha => (h.area ha).1) hq ?_
    obtain ⟨fw, e, rfl⟩ := hq
    rw [e] at hh
    show fw.kernelSize ≤ 128
    simpa using hh

/-- Examples: RGB, rows of 18 bytes, vertical windows of three taps; both dimensions change. -/
def Demo.nsrc : Image ℕ :=
  { buffer := (List.range 54).map (fun i => i * 29 % 256), channels := 3, width := 6, height := 3, stride := 18, bitDepth := 8 }
def Demo.ndst : Image ℕ :=
  { buffer := List.replicate 13 9, channels := 3, width := 4, height := 1, stride := 13, bitDepth := 8 }

theorem Demo.naccepted : AcceptedX86 (2 ^ 64) 3 demoLib .bilinear Demo.nsrc Demo.ndst :=
  accepted_of_taps (by constructor <;> decide +kernel) (by decide +kernel) (by decide +kernel) (by decide +kernel)

example : ∃ out, genericResize (2 ^ 64) 3 (formatNeon true .preferQuality 3) demoLib .bilinear Demo.nsrc Demo.ndst =
    some (.ok (), out) := by
  obtain ⟨_, _, out, _, _, _, _, h, _⟩ := C139_neon_values (rdm := true) (s := .preferQuality) Demo.naccepted
    (Or.inl rfl) (Or.inl (le_refl _)) (Or.inr (Or.inl (by decide)))
  exact ⟨out, h⟩

/-- A tie is rounded down: the mean of 2 and 3 is 2 (it is 3 in the portable horizontal pass). -/
example : fixedRoundDown 2 (fun _ => 16384) (fun k => 2 + k) = 2 ∧ fixedRound 255 2 (fun _ => 16384) (fun k => 2 + k) = 3 := by
  decide +kernel

/-! ### C140: columns are treated alike -/

/-- **C140** (partly). A resize that only changes the height treats all columns (and channels) alike with the 32-bit NEON
handlers: columns with equal samples stay equal, under the conditions of C139. -/
theorem C140_columns_partial {rdm : Bool} {s : Workload} {W N : ℕ} {L : Lib} {r : ResamplingFunction}
    {store into out : Image ℕ} (h : AcceptedX86 W N L r store into) (hs : Full32 rdm s) (hN : N ≠ 2)
    (hw : store.width = into.width)
    (h3 : store.width * N % 16 < 8 ∨
      ∀ q, IsTable L r store.height into.height q → ∀ y, y < into.height → (q.bound y).size ≠ 3)
    (ho : genericResize W N (formatNeon rdm s N) L r store into = some (.ok (), out))
    {x x' c c' : ℕ} (hx : x < into.width) (hx' : x' < into.width) (hc : c < N) (hc' : c' < N)
    (he : ∀ y, y < store.height → sample store.buffer (store.strideOf N) N y x c =
      sample store.buffer (store.strideOf N) N y x' c') :
    ∀ y, y < into.height → sample out.buffer (into.strideOf N) N y x c = sample out.buffer (into.strideOf N) N y x' c' := by
  have hn := h.call.channels
  obtain ⟨qv, qh, out', tv, th, Tv, Th, o1, _, _, o4⟩ := C139_neon_values (rdm := rdm) (s := s) h hs (by omega) (Or.inr h3)
  rw [o1] at ho
  obtain rfl : out' = out := by simpa using ho
  intro y hy
  rw [o4 y x c hy hx hc, o4 y x' c' hy hx' hc']
  have hne : store.height ≠ into.height := by have := h.call.sizes; tauto
  unfold separable
  simp only [if_pos hw, if_neg hne]
  congr 1
  unfold fixedRoundDown
  congr 2
  refine wsum_congr (fun _ _ => rfl) fun k hk => ?_
  have := Tv.inside y hy
  simp only [pxD]
  rw [he _ (by omega)]

/-- **C140 fails**: shrinking an RGBA image of two *identical* columns (black, black, white) from three rows to one, the
left pixel becomes 73 and the right one 109: for rows with a remainder of 8 to 15 bytes the 32-bit handler weighs the third
row of bytes 4 to 7 with the second weight. -/
theorem C140_violated :
    AcceptedX86 (2 ^ 64) 4 demoLib .bilinear
      ⟨List.replicate 16 0 ++ List.replicate 8 255, 4, 2, 3, 8, 8⟩ ⟨List.replicate 8 7, 4, 2, 1, 8, 8⟩ ∧
    ∀ s rdm, Full32 rdm s →
      genericResize (2 ^ 64) 4 (formatNeon rdm s 4) demoLib .bilinear
        ⟨List.replicate 16 0 ++ List.replicate 8 255, 4, 2, 3, 8, 8⟩ ⟨List.replicate 8 7, 4, 2, 1, 8, 8⟩ =
        some (.ok (), ⟨[73, 73, 73, 73, 109, 109, 109, 109], 4, 2, 1, 8, 8⟩) := by
  refine ⟨accepted_of_taps (by constructor <;> decide +kernel) (by decide +kernel) (by decide +kernel)
    (by decide +kernel), ?_⟩
  intro s rdm h
  cases s <;> cases rdm <;> first | decide +kernel | exact absurd h (by simp [Full32])

/-! ### C141: one channel -/

/-- **C141 fails, for every input**: with the 32-bit NEON handlers, an 8-bit one-channel image whose width changes
comes out entirely black as soon as no horizontal window has more than eight taps — whatever its samples. (The results of
the 4-tap and 1-tap remainder steps are dropped.) -/
theorem C141_plane_black {rdm : Bool} {s : Workload} {W : ℕ} {L : Lib} {r : ResamplingFunction}
    {store into : Image ℕ} (h : AcceptedX86 W 1 L r store into) (hs : Full32 rdm s)
    (hw : store.width ≠ into.width)
    (h8 : ∀ q, IsTable L r store.width into.width q → ∀ x, x < into.width → (q.bound x).size ≤ 8) :
    ∃ out, genericResize W 1 (formatNeon rdm s 1) L r store into = some (.ok (), out) ∧
      ∀ y x, y < into.height → x < into.width → sample out.buffer (into.strideOf 1) 1 y x 0 = some 0 := by
  obtain ⟨Dh, eh⟩ := selectNeonH_full hs h.call.channels (by omega) store.width into.height into.width into.height
  obtain ⟨qv, qh, out, tv, th, Tv, Th, Wv, Wh, o1, o2, o3, o4⟩ := neon_values (rdm := rdm) (s := s) h
    (by rw [eh]; simp)
  refine ⟨out, o1, fun y x hy hx => ?_⟩
  rw [o4 y x 0 hy hx (by omega), eh]
  unfold sepAbs
  simp only [if_neg hw]
  congr 1
  show fixedRoundDown (if 1 = 1 then 8 * (((qh.bound x).size - 1) / 8) else _) _ _ = 0
  have : (qh.bound x).size ≤ 8 := h8 qh th x hx
  rw [if_pos rfl, show 8 * (((qh.bound x).size - 1) / 8) = 0 by omega]
  unfold fixedRoundDown
  rw [show wsum 0 (fun k => qh.weight x k) _ = 0 by simp [wsum]]
  decide +kernel

/-- A white row of 4 pixels becomes 3 black pixels. -/
theorem C141_violated : ∀ s rdm, Full32 rdm s →
    genericResize (2 ^ 64) 1 (formatNeon rdm s 1) demoLib .bilinear
      ⟨List.replicate 4 255, 1, 4, 1, 4, 8⟩ ⟨List.replicate 3 7, 1, 3, 1, 3, 8⟩ =
      some (.ok (), ⟨[0, 0, 0], 1, 3, 1, 3, 8⟩) := by
  intro s rdm h
  cases s <;> cases rdm <;> first | decide +kernel | exact absurd h (by simp [Full32])

/-- The hypotheses of `C141_plane_black` are met by the call of `C141_violated`. -/
example : AcceptedX86 (2 ^ 64) 1 demoLib .bilinear
      ⟨List.replicate 4 255, 1, 4, 1, 4, 8⟩ ⟨List.replicate 3 7, 1, 3, 1, 3, 8⟩ ∧
    ∀ q, IsTable demoLib .bilinear 4 3 q → ∀ x, x < 3 → (q.bound x).size ≤ 8 := by
  refine ⟨accepted_of_taps (by constructor <;> decide +kernel) (by decide +kernel) (by decide +kernel)
    (by decide +kernel), ?_⟩
  rintro q ⟨fw, e, rfl⟩
  have : (tableOf demoLib .bilinear 4 3).map (fun t => (List.range 3).all fun x =>
      decide (((numericalApproximation F32.rnd t).bound x).size ≤ 8)) = some true := by decide +kernel
  rw [e] at this
  simpa using this

/-! ### C142: the `rdm` handlers -/

/-- **C142.** The default strategy on AArch64 CPUs with the `rdm` extension: if neither dimension changes by a
factor of eight or more and no 16-bit accumulator can overflow, each pass is the low precision sum of the window, for
every image whose rows leave a remainder of less than 16 bytes after blocks of 32, or whose vertical windows
do not have exactly four taps, or whose height does not change (see `C143_violated` for the others). -/
theorem C142_rdm_values {W N : ℕ} {L : Lib} {r : ResamplingFunction}
    {store into : Image ℕ} (h : AcceptedX86 W N L r store into) (h16 : BothTables L r store into NoOverflow16)
    (hbv : below8 store.height into.height = true) (hbh : below8 store.width into.width = true)
    (h4 : store.height = into.height ∨ store.width * N % 32 < 16 ∨
      ∀ q, IsTable L r store.height into.height q → ∀ y, y < into.height → (q.bound y).size ≠ 4) :
    ∃ qv qh out, IsTable L r store.height into.height qv ∧ IsTable L r store.width into.width qh ∧
      ValidTable qv store.height into.height ∧ ValidTable qh store.width into.width ∧
      genericResize W N (formatNeon true .preferSpeed N) L r store into = some (.ok (), out) ∧
      SameShape out into ∧ PaddingKept N into out ∧
      ∀ y x c, y < into.height → x < into.width → c < N →
        sample out.buffer (into.strideOf N) N y x c = some
          (separable store.width store.height into.width into.height
            (fun i => (qv.bound i).start)
            (fun i p => fixedLow (qv.bound i).size (fun k => qv.weight i k) p)
            (fun i => (qh.bound i).start)
            (fun i p => fixedLow (qh.bound i).size (fun k => qh.weight i k) p)
            (fun y x => pxD 0 store.buffer (store.strideOf N) N y x c) y x) := by
  obtain ⟨n1, n4⟩ := h.call.channels
  obtain ⟨_, _, c3, _⟩ := checkResize_ok.1 h.call.checked
  have eh : selectNeonH true .preferSpeed N store.width into.height into.width into.height = .rdm := by
    have := below8_self c3.2.2.2
    interval_cases N <;> unfold selectNeonH <;> simp [hbh, this]
  have ev : selectNeonV true .preferSpeed store.height into.height = .rdm := by
    unfold selectNeonV
    simp [hbv]
  obtain ⟨qv, qh, out, tv, th, Tv, Th, Wv, Wh, o1, o2, o3, o4⟩ := neon_values (rdm := true) (s := .preferSpeed) h
    fun _ => h16
  refine ⟨qv, qh, out, tv, th, Tv, Th, o1, o2, o3, fun y x c hy hx hcc => ?_⟩
  rw [o4 y x c hy hx hcc]
  congr 1
  refine sep_of_abs (pxD_byte h.bytes N c) (fun _ _ _ _ => NeonV.value_le _ _ _ _ _ _) ?_ ?_
  · intro hne x' P hP
    rw [ev, NeonV.value_eq hy Wv (h.noOverflow.1 qv tv) (fun _ => h16.1 qv tv) hP]
    intro j _
    refine NeonV.weightAt_eq ?_ _ _
    rcases h4 with h4 | h4 | h4
    · exact absurd h4 hne
    · exact Or.inr h4
    · exact Or.inl (h4 qv tv y hy)
  · intro hne P hP
    rw [eh]
    rfl

example : ∃ out, genericResize (2 ^ 64) 4 (formatNeon true .preferSpeed 4) demoLib .bilinear
    Demo.xsrc Demo.xdst = some (.ok (), out) := by
  obtain ⟨_, _, out, _, _, _, _, h, _⟩ := C142_rdm_values Demo.xaccepted Demo.x16
    (by decide +kernel) (by decide +kernel) (Or.inr (Or.inl (by decide)))
  exact ⟨out, h⟩

/-- **C143** (partly). A resize that only changes the height treats all columns (and channels) alike with the `rdm`
handlers: columns with equal samples stay equal, under the conditions of C142. -/
theorem C143_columns_partial {W N : ℕ} {L : Lib} {r : ResamplingFunction}
    {store into out : Image ℕ} (h : AcceptedX86 W N L r store into) (h16 : BothTables L r store into NoOverflow16)
    (hbv : below8 store.height into.height = true)
    (hw : store.width = into.width)
    (h4 : store.width * N % 32 < 16 ∨
      ∀ q, IsTable L r store.height into.height q → ∀ y, y < into.height → (q.bound y).size ≠ 4)
    (ho : genericResize W N (formatNeon true .preferSpeed N) L r store into = some (.ok (), out))
    {x x' c c' : ℕ} (hx : x < into.width) (hx' : x' < into.width) (hc : c < N) (hc' : c' < N)
    (he : ∀ y, y < store.height → sample store.buffer (store.strideOf N) N y x c =
      sample store.buffer (store.strideOf N) N y x' c') :
    ∀ y, y < into.height → sample out.buffer (into.strideOf N) N y x c = sample out.buffer (into.strideOf N) N y x' c' := by
  obtain ⟨_, _, c3, _⟩ := checkResize_ok.1 h.call.checked
  obtain ⟨qv, qh, out', tv, th, Tv, Th, o1, _, _, o4⟩ := C142_rdm_values h h16 hbv
    (by rw [hw]; exact below8_self c3.2.2.1) (Or.inr h4)
  rw [o1] at ho
  obtain rfl : out' = out := by simpa using ho
  intro y hy
  rw [o4 y x c hy hx hc, o4 y x' c' hy hx' hc']
  have hne : store.height ≠ into.height := by have := h.call.sizes; tauto
  unfold separable
  simp only [if_pos hw, if_neg hne]
  congr 1
  unfold fixedLow
  congr 5
  refine sum_congr rfl fun k hk => ?_
  have hk : k < (qv.bound y).size := by simpa using hk
  have := Tv.inside y hy
  simp only [pxD]
  rw [he _ (by omega)]

/-- **C143 fails**: shrinking an image of identical columns (rows 0, 0, 0, 255, 0) from five rows to two with the default strategy on a
CPU with `rdm`, the first row should be 12 everywhere (as it is in the last of the 17 columns), but the first 16
columns are 58: for a remainder of 16 to 31 bytes the handler weighs the fourth row of a 4-tap window with the third
weight. -/
theorem C143_violated :
    AcceptedX86 (2 ^ 64) 1 demoLib .bilinear
      ⟨List.replicate 51 0 ++ List.replicate 17 255 ++ List.replicate 17 0, 1, 17, 5, 17, 8⟩
      ⟨List.replicate 34 7, 1, 17, 2, 17, 8⟩ ∧
    (genericResize (2 ^ 64) 1 (formatNeon true .preferSpeed 1) demoLib .bilinear
      ⟨List.replicate 51 0 ++ List.replicate 17 255 ++ List.replicate 17 0, 1, 17, 5, 17, 8⟩
      ⟨List.replicate 34 7, 1, 17, 2, 17, 8⟩).map (fun r => r.2.buffer.take 17) =
      some (List.replicate 16 58 ++ [12]) := by
  refine ⟨accepted_of_taps (by constructor <;> decide +kernel) (by decide +kernel) (by decide +kernel)
    (by decide +kernel), ?_⟩
  decide +kernel

/-! ### C144: the strategy -/

/-- **C144.** On AArch64 CPUs without the `rdm` extension the workload strategy changes nothing: both strategies
give exactly the same picture. -/
theorem C144_strategy_irrelevant {W N : ℕ} {L : Lib} {r : ResamplingFunction} {store into out out' : Image ℕ}
    (h : AcceptedX86 W N L r store into)
    (ho : genericResize W N (formatNeon false .preferQuality N) L r store into = some (.ok (), out))
    (ho' : genericResize W N (formatNeon false .preferSpeed N) L r store into = some (.ok (), out')) :
    ∀ y x c, y < into.height → x < into.width → c < N →
      sample out.buffer (into.strideOf N) N y x c = sample out'.buffer (into.strideOf N) N y x c := by
  have n16 : ∀ s, selectNeonH false s N store.width into.height into.width into.height ≠ .rdm := by
    intro s
    obtain ⟨n1, n4⟩ := h.call.channels
    interval_cases N <;> unfold selectNeonH <;> cases s <;> simp
  obtain ⟨qv, qh, o, tv, th, Tv, Th, Wv, Wh, o1, _, _, o4⟩ := neon_values (rdm := false) (s := .preferQuality) h
    fun e => absurd e (n16 _)
  obtain ⟨qv', qh', o', tv', th', _, _, _, _, o1', _, _, o4'⟩ := neon_values (rdm := false) (s := .preferSpeed) h
    fun e => absurd e (n16 _)
  obtain rfl := isTable_unique tv tv'
  obtain rfl := isTable_unique th th'
  rw [o1] at ho
  rw [o1'] at ho'
  obtain rfl : o = out := by simpa using ho
  obtain rfl : o' = out' := by simpa using ho'
  intro y x c hy hx hc
  rw [o4 y x c hy hx hc, o4' y x c hy hx hc]
  congr 1
  have hH : ∀ P, (selectNeonH false .preferQuality N store.width into.height into.width into.height).value N qh x P =
      (selectNeonH false .preferSpeed N store.width into.height into.width into.height).value N qh x P := by
    intro P
    obtain ⟨n1, n4⟩ := h.call.channels
    interval_cases N <;> unfold selectNeonH <;> simp [NeonH.value]
  have hV : ∀ x' P, (∀ i, P i ≤ 255) →
      (selectNeonV false .preferQuality store.height into.height).value qv (store.width * N) y (x' * N + c) P =
      (selectNeonV false .preferSpeed store.height into.height).value qv (store.width * N) y (x' * N + c) P := by
    intro x' P hP
    have e1 : selectNeonV false .preferQuality store.height into.height = .full true := rfl
    have e2 : selectNeonV false .preferSpeed store.height into.height = .full false := by unfold selectNeonV; simp
    rw [e1, e2, NeonV.value_full hy Wv (h.noOverflow.1 qv tv) hP, NeonV.value_full hy Wv (h.noOverflow.1 qv tv) hP]
    rfl
  unfold sepAbs
  simp only
  have hcol : ∀ x', (if store.height = into.height then pxD 0 store.buffer (store.strideOf N) N y x' c else
      (selectNeonV false .preferQuality store.height into.height).value qv (store.width * N) y (x' * N + c)
        (fun y' => pxD 0 store.buffer (store.strideOf N) N y' x' c)) =
      (if store.height = into.height then pxD 0 store.buffer (store.strideOf N) N y x' c else
      (selectNeonV false .preferSpeed store.height into.height).value qv (store.width * N) y (x' * N + c)
        (fun y' => pxD 0 store.buffer (store.strideOf N) N y' x' c)) := by
    intro x'
    split_ifs
    · rfl
    · exact hV x' _ fun i => pxD_byte h.bytes N c _ _
  rw [hH]
  simp only [hcol]

example : AcceptedX86 (2 ^ 64) 4 demoLib .bilinear Demo.xsrc Demo.xdst ∧
    (∃ out, genericResize (2 ^ 64) 4 (formatNeon false .preferQuality 4) demoLib .bilinear Demo.xsrc Demo.xdst =
      some (.ok (), out)) ∧
    ∃ out, genericResize (2 ^ 64) 4 (formatNeon false .preferSpeed 4) demoLib .bilinear Demo.xsrc Demo.xdst =
      some (.ok (), out) := by
  obtain ⟨out, h1, _⟩ := C138_neon_no_oob (rdm := false) (s := .preferQuality) (L := demoLib) Demo.xcall
  obtain ⟨out', h2, _⟩ := C138_neon_no_oob (rdm := false) (s := .preferSpeed) (L := demoLib) Demo.xcall
  exact ⟨Demo.xaccepted, ⟨out, h1⟩, out', h2⟩

/-! ### C145: agreement with the portable code -/

theorem roundDown_near (S : ℤ) :
    (fixRoundDown S = fixRound S ∨ fixRoundDown S + 1 = fixRound S) ∧
      (fixRoundDown S ≠ fixRound S → S % 32768 = 16384) := by
  have h1 := fixRoundDown_eq S
  have h2 : fixRound S = (S + 16384) / 32768 := by
    show ⌊(S : ℚ) / 32768 + 1 / 2⌋ = _
    rw [show (S : ℚ) / 32768 + 1 / 2 = ((S + 16384 : ℤ) : ℚ) / ((32768 : ℕ) : ℚ) by push_cast; ring]
    exact Rat.floor_intCast_div_natCast _ _
  rw [h1, h2]
  omega

/-- **C145.** Resizes of RGB and RGBA images that only change the width agree with the portable code: with the 32-bit NEON
handlers every sample is the portable one, or one less — the latter only where the exact weighted sum is
half-way between two values. -/
theorem C145_portable_agreement {rdm : Bool} {s s' : Workload} {W N : ℕ} {L : Lib} {r : ResamplingFunction}
    {store into out out' : Image ℕ} (h : AcceptedX86 W N L r store into) (hs : Full32 rdm s) (hN : 3 ≤ N)
    (hh : store.height = into.height)
    (ho : genericResize W N (formatNeon rdm s N) L r store into = some (.ok (), out))
    (ho' : genericResize W N (formatX86 ⟨false, false⟩ .preferQuality N) L r store into = some (.ok (), out')) :
    ∀ y x c, y < into.height → x < into.width → c < N →
      ∃ a b, sample out.buffer (into.strideOf N) N y x c = some a ∧
        sample out'.buffer (into.strideOf N) N y x c = some b ∧ (a = b ∨ (a + 1 = b ∧ ∀ q, IsTable L r store.width into.width q →
          wsum (q.bound x).size (fun k => q.weight x k)
            (fun k => ((pxD 0 store.buffer (store.strideOf N) N y ((q.bound x).start + k) c : ℕ) : ℤ)) % 32768 = 16384)) := by
  obtain ⟨qv, qh, o, tv, th, Tv, Th, o1, _, _, o4⟩ := C139_neon_values (rdm := rdm) (s := s) h hs (Or.inl hN) (Or.inl hh)
  rw [o1] at ho
  obtain rfl : o = out := by simpa using ho
  obtain ⟨_, _, _, _, o4'⟩ := x86_result h (Or.inr (Or.inl rfl)) tv th ho'
  intro y x c hy hx hc
  refine ⟨_, _, o4 y x c hy hx hc, o4' y x c hy hx hc, ?_⟩
  have hne : store.width ≠ into.width := by have := h.call.sizes; tauto
  obtain ⟨n1, n4⟩ := h.call.channels
  have ek : selectH ⟨false, false⟩ .preferQuality N store.width into.height into.width into.height = .scalar := by
    interval_cases N <;> unfold selectH <;> simp
  unfold separable sepAbs
  simp only [if_neg hne, if_pos hh, ek]
  show clamp 255 (fixRoundDown _) = clamp 255 (fixRound _) ∨
    (clamp 255 (fixRoundDown _) + 1 = clamp 255 (fixRound _) ∧ _)
  have hu : ∀ q, IsTable L r store.width into.width q → q = qh := fun q hq => isTable_unique hq th
  generalize hS : wsum (qh.bound x).size (fun k => qh.weight x k)
    (fun k => ((pxD 0 store.buffer (store.strideOf N) N y ((qh.bound x).start + k) c : ℕ) : ℤ)) = S
  obtain ⟨h1, h2⟩ := roundDown_near S
  by_cases h3 : fixRoundDown S = fixRound S
  · exact Or.inl (by rw [h3])
  · by_cases h4 : clamp 255 (fixRoundDown S) = clamp 255 (fixRound S)
    · exact Or.inl h4
    · refine Or.inr ⟨?_, fun q hq => ?_⟩
      · have : fixRoundDown S + 1 = fixRound S := by tauto
        rw [← this] at h4 ⊢
        generalize fixRoundDown S = z at h4 ⊢
        unfold clamp at h4 ⊢
        omega
      · obtain rfl := hu q hq
        rw [hS]
        exact h2 h3

example : AcceptedX86 (2 ^ 64) 3 demoLib .bilinear
      ⟨(List.range 15).map (fun i => i * 17 % 256), 3, 5, 1, 15, 8⟩ ⟨List.replicate 9 7, 3, 3, 1, 9, 8⟩ :=
  accepted_of_taps (by constructor <;> decide +kernel) (by decide +kernel) (by decide +kernel) (by decide +kernel)

/-! ### C146: locality -/

theorem NeonV.value_congr (k : NeonV) (q : FilterWeights ℤ) (T y p : ℕ) {P P' : ℕ → ℕ}
    (h : ∀ j, j < (q.bound y).size → P ((q.bound y).start + j) = P' ((q.bound y).start + j)) :
    k.value q T y p P = k.value q T y p P' := by
  cases k
  · show narrow32 _ _ = narrow32 _ _
    rw [tapFold_congr fun j hj => ⟨rfl, h j hj⟩]
  · show narrow16 _ = narrow16 _
    rw [tapFold_congr fun j hj => ⟨rfl, h j hj⟩]

theorem NeonH.value_congr (k : NeonH) (N : ℕ) (q : FilterWeights ℤ) (x : ℕ) {P P' : ℕ → ℕ}
    (h : ∀ j, j < (q.bound x).size → P ((q.bound x).start + j) = P' ((q.bound x).start + j)) :
    k.value N q x P = k.value N q x P' := by
  cases k
  · show clamp 255 (fixRound (wsum _ _ _)) = clamp 255 (fixRound (wsum _ _ _))
    rw [wsum_cast_congr h]
  · show clamp 255 (fixRoundDown (wsum _ _ _)) = clamp 255 (fixRoundDown (wsum _ _ _))
    rw [wsum_cast_congr fun k hk => h k (by split_ifs at hk <;> omega)]
  · show fixedLow _ _ _ = fixedLow _ _ _
    unfold fixedLow
    congr 5
    exact sum_congr rfl fun k hk => by dsimp only; rw [h k (by simpa using hk)]

/-- **C146.** On AArch64 an output pixel depends only on the source pixels inside its vertical and horizontal windows, whatever
the strategy and whether or not the CPU has `rdm` — even where C140, C141 and C143 fail. -/
theorem C146_neon_locality {rdm : Bool} {s : Workload} {W N : ℕ} {L : Lib} {r : ResamplingFunction}
    {store store' into out out' : Image ℕ} {qv qh : FilterWeights ℤ} {y x : ℕ}
    (h : AcceptedX86 W N L r store into) (h' : AcceptedX86 W N L r store' into)
    (h16 : Full32 rdm s ∨ BothTables L r store into NoOverflow16)
    (hsz : store.width = store'.width ∧ store.height = store'.height)
    (tv : IsTable L r store.height into.height qv) (th : IsTable L r store.width into.width qh)
    (hy : y < into.height) (hx : x < into.width)
    (hp : ∀ y' x' c,
      (if store.height = into.height then y' = y
        else (qv.bound y).start ≤ y' ∧ y' < (qv.bound y).start + (qv.bound y).size) →
      (if store.width = into.width then x' = x
        else (qh.bound x).start ≤ x' ∧ x' < (qh.bound x).start + (qh.bound x).size) → c < N →
      sample store.buffer (store.strideOf N) N y' x' c = sample store'.buffer (store'.strideOf N) N y' x' c)
    (ho : genericResize W N (formatNeon rdm s N) L r store into = some (.ok (), out))
    (ho' : genericResize W N (formatNeon rdm s N) L r store' into = some (.ok (), out')) :
    ∀ c, c < N →
      sample out.buffer (into.strideOf N) N y x c = sample out'.buffer (into.strideOf N) N y x c := by
  have hk : selectNeonH rdm s N store.width into.height into.width into.height = .rdm →
      BothTables L r store into NoOverflow16 := by
    intro e
    rcases h16 with hf | h16
    · exfalso
      obtain ⟨n1, n4⟩ := h.call.channels
      by_cases h2 : N = 2
      · subst h2
        unfold selectNeonH at e
        simp only at e
        split_ifs at e with hc
        rcases hf with hf | hf
        · rw [hf] at hc; simp at hc
        · rw [hf] at hc; simp at hc
      · obtain ⟨D, e'⟩ := selectNeonH_full hf ⟨n1, n4⟩ h2 store.width into.height into.width into.height
        rw [e'] at e
        exact absurd e (by simp)
    · exact h16
  have hk' : selectNeonH rdm s N store'.width into.height into.width into.height = .rdm →
      BothTables L r store' into NoOverflow16 := by
    intro e
    have := hk (by rw [hsz.1]; exact e)
    unfold BothTables at this ⊢
    rw [← hsz.1, ← hsz.2]
    exact this
  intro c hcc
  obtain ⟨qv1, qh1, o, tv1, th1, _, _, _, _, o1, _, _, o4⟩ := neon_values (rdm := rdm) (s := s) h hk
  obtain ⟨qv2, qh2, o', tv2, th2, _, _, _, _, o1', _, _, o4'⟩ := neon_values (rdm := rdm) (s := s) h' hk'
  rw [o1] at ho
  rw [o1'] at ho'
  obtain rfl : o = out := by simpa using ho
  obtain rfl : o' = out' := by simpa using ho'
  obtain rfl := isTable_unique tv tv1
  obtain rfl := isTable_unique th th1
  rw [← hsz.2] at tv2
  rw [← hsz.1] at th2
  obtain rfl := isTable_unique tv tv2
  obtain rfl := isTable_unique th th2
  rw [o4 y x c hy hx hcc, o4' y x c hy hx hcc, ← hsz.1, ← hsz.2]
  congr 1
  refine sepAbs_congr (q := qh) ?_ ?_ ?_
  · intro hd x' hx'
    simp only [pxD]
    rw [hp y x' c (by rw [if_pos hd]) hx' hcc]
  · intro hd x' hx'
    refine NeonV.value_congr _ _ _ _ _ fun j hj => ?_
    simp only [pxD]
    rw [hp _ x' c (by rw [if_neg hd]; omega) hx' hcc]
  · intro hd P P' hP
    refine NeonH.value_congr _ _ _ _ fun j hj => ?_
    exact hP _ (by unfold InWin; rw [if_neg hd]; omega)

example : ∃ (store' out out' : Image ℕ), AcceptedX86 (2 ^ 64) 4 demoLib .bilinear Demo.xsrc Demo.xdst ∧
    BothTables demoLib .bilinear Demo.xsrc Demo.xdst NoOverflow16 ∧ store'.buffer ≠ Demo.xsrc.buffer ∧
    genericResize (2 ^ 64) 4 (formatNeon true .preferSpeed 4) demoLib .bilinear Demo.xsrc Demo.xdst =
      some (.ok (), out) ∧
    genericResize (2 ^ 64) 4 (formatNeon true .preferSpeed 4) demoLib .bilinear store' Demo.xdst =
      some (.ok (), out') := by
  have hs : AcceptedCall (2 ^ 64) 4 .bilinear { Demo.xsrc with buffer := List.replicate 48 3 } Demo.xdst := by
    constructor <;> decide +kernel
  obtain ⟨out, h1, _⟩ := C138_neon_no_oob (rdm := true) (s := .preferSpeed) (L := demoLib) Demo.xcall
  obtain ⟨out', h2, _⟩ := C138_neon_no_oob (rdm := true) (s := .preferSpeed) (L := demoLib) hs
  exact ⟨_, out, out', Demo.xaccepted, Demo.x16, by decide +kernel, h1, h2⟩

end PicScale
