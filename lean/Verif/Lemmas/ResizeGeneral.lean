import Verif.Props.Resize

/-! Facts about resizes that hold for every format whose passes are known (`PassOK`). -/

namespace PicScale

open Spec

variable {S : Type}

/-- An accepted convolution resize of a format with samples `good` and tables `okT`. -/
structure AcceptedBy (W N : ℕ) (F : Format S) (good : S → Prop) (okT : FilterWeights ℚ → ℕ → Prop) (L : Lib)
    (r : ResamplingFunction) (store into : Image S) : Prop where
  channels : 1 ≤ N ∧ N ≤ 4
  checked : checkResize W N F.shouldHaveBitDepth store into = .ok ()
  filter : r ≠ .nearest
  sizes : store.width ≠ into.width ∨ store.height ≠ into.height
  small : store.width ≤ 2 ^ 23 ∧ store.height ≤ 2 ^ 23
  area : r = .area → into.width ≤ 2 ^ 22 ∧ into.height ≤ 2 ^ 22
  fits : store.width * into.height * N < W
  samples : ∀ v ∈ store.buffer, good v
  tables : (∀ fw, tableOf L r store.height into.height = some fw → PlainShape fw into.height → okT fw into.height) ∧
    (∀ fw, tableOf L r store.width into.width = some fw → PlainShape fw into.width → okT fw into.width)

theorem resize_general {W N d : ℕ} {F : Format S} {good : S → Prop} {okT : FilterWeights ℚ → ℕ → Prop}
    {vv hv : FilterWeights ℚ → ℕ → (ℕ → S) → S} (P : PassOK N F d good okT vv hv) {L : Lib}
    {r : ResamplingFunction} {store into : Image S} (h : AcceptedBy W N F good okT L r store into)
    (hd : into.bitDepth = d) :
    ∃ vf hf out, tableOf L r store.height into.height = some vf ∧ tableOf L r store.width into.width = some hf ∧
      ValidTable vf store.height into.height ∧ ValidTable hf store.width into.width ∧
      genericResize W N F L r store into = some (.ok (), out) ∧ SameShape out into ∧ PaddingKept N into out ∧
      ∀ y x c, y < into.height → x < into.width → c < N →
        sample out.buffer (into.strideOf N) N y x c = some
          (separable store.width store.height into.width into.height
            (fun i => (vf.bound i).start) (vv vf) (fun i => (hf.bound i).start) (hv hf)
            (fun y x => pxD F.default store.buffer (store.strideOf N) N y x c) y x) := by
  obtain ⟨c1, c2, c3, _⟩ := checkResize_ok.1 h.checked
  obtain ⟨vf, ev, Tv, Sv⟩ := table_exists L r (out := into.height) c3.2.1 h.small.2 (fun ha => (h.area ha).2)
  obtain ⟨hf, eh, Th, Sh⟩ := table_exists L r (out := into.width) c3.1 h.small.1 (fun ha => (h.area ha).1)
  obtain ⟨out, o1, o2, o3, o4⟩ := convolve_spec (W := W) P h.channels.1
    (table := tableOf L r) c2 c1 c3.1 c3.2.2.1 hd h.sizes h.fits ev eh Tv Th
    (h.tables.1 vf ev Sv) (h.tables.2 hf eh Sh) h.samples
  exact ⟨vf, hf, out, ev, eh, Tv, Th, genericResize_conv h.checked h.filter h.sizes o1, o2, o3, o4⟩

/-- Pixel formulas agree if the samples inside the windows agree. -/
theorem separable_congr_general {N d : ℕ} {F : Format S} {good : S → Prop} {okT : FilterWeights ℚ → ℕ → Prop}
    {vv hv : FilterWeights ℚ → ℕ → (ℕ → S) → S} (P : PassOK N F d good okT vv hv)
    {sw sh dw dh : ℕ} {vf hf : FilterWeights ℚ} {p p' : ℕ → ℕ → S} {y x : ℕ}
    (hv0 : 1 ≤ (vf.bound y).size) (hh0 : 1 ≤ (hf.bound x).size)
    (h : ∀ y' x', (if sh = dh then y' = y else (vf.bound y).start ≤ y' ∧ y' < (vf.bound y).start + (vf.bound y).size) →
      (if sw = dw then x' = x else (hf.bound x).start ≤ x' ∧ x' < (hf.bound x).start + (hf.bound x).size) →
      p y' x' = p' y' x') :
    separable sw sh dw dh (fun i => (vf.bound i).start) (vv vf) (fun i => (hf.bound i).start) (hv hf) p y x =
      separable sw sh dw dh (fun i => (vf.bound i).start) (vv vf) (fun i => (hf.bound i).start) (hv hf) p' y x := by
  have hcol : ∀ x', (if sw = dw then x' = x else (hf.bound x).start ≤ x' ∧ x' < (hf.bound x).start + (hf.bound x).size) →
      (if sh = dh then p y x' else vv vf y (fun k => p ((vf.bound y).start + k) x')) =
        (if sh = dh then p' y x' else vv vf y (fun k => p' ((vf.bound y).start + k) x')) := by
    intro x' hx'
    split_ifs with hd
    · exact h y x' (by rw [if_pos hd]) hx'
    · exact P.cong_v _ _ _ _ hv0 fun k hk => h _ x' (by rw [if_neg hd]; omega) hx'
  unfold separable
  simp only
  by_cases hd : sw = dw
  · rw [if_pos hd, if_pos hd]
    exact hcol x (by rw [if_pos hd])
  · rw [if_neg hd, if_neg hd]
    exact P.cong_h _ _ _ _ hh0 fun k hk => hcol ((hf.bound x).start + k) (by rw [if_neg hd]; omega)

/-- Channel independence for every pair of formats with the same pass values. -/
theorem channels_general {W N N' d : ℕ} {F F' : Format S} {good : S → Prop} {okT : FilterWeights ℚ → ℕ → Prop}
    {vv hv : FilterWeights ℚ → ℕ → (ℕ → S) → S} (P : PassOK N F d good okT vv hv) (P' : PassOK N' F' d good okT vv hv)
    (hF : F.default = F'.default)
    {L : Lib} {r : ResamplingFunction} {store into store' into' out out' : Image S} {c c' : ℕ}
    (h : AcceptedBy W N F good okT L r store into) (h' : AcceptedBy W N' F' good okT L r store' into')
    (hd : into.bitDepth = d) (hd' : into'.bitDepth = d) (hc : c < N) (hc' : c' < N')
    (hsz : store.width = store'.width ∧ store.height = store'.height)
    (hdz : into.width = into'.width ∧ into.height = into'.height)
    (hp : ∀ y x, y < store.height → x < store.width →
      sample store.buffer (store.strideOf N) N y x c = sample store'.buffer (store'.strideOf N') N' y x c')
    (ho : genericResize W N F L r store into = some (.ok (), out))
    (ho' : genericResize W N' F' L r store' into' = some (.ok (), out')) :
    ∀ y x, y < into.height → x < into.width →
      sample out.buffer (into.strideOf N) N y x c = sample out'.buffer (into'.strideOf N') N' y x c' := by
  obtain ⟨vf, hf, o, ev, eh, Tv, Th, o1, _, _, e⟩ := resize_general P h hd
  obtain ⟨vf', hf', o', ev', eh', _, _, o1', _, _, e'⟩ := resize_general P' h' hd'
  rw [o1] at ho
  rw [o1'] at ho'
  obtain rfl : o = out := by simpa using ho
  obtain rfl : o' = out' := by simpa using ho'
  rw [← hsz.2, ← hdz.2, ev] at ev'
  rw [← hsz.1, ← hdz.1, eh] at eh'
  obtain rfl := Option.some.inj ev'
  obtain rfl := Option.some.inj eh'
  intro y x hy hx
  rw [e y x c hy hx hc, e' y x c' (hdz.2 ▸ hy) (hdz.1 ▸ hx) hc', ← hsz.1, ← hsz.2, ← hdz.1, ← hdz.2]
  congr 1
  apply separable_congr_general P (Tv.size_pos y hy) (Th.size_pos x hx)
  intro y' x' h1 h2
  simp only [pxD]
  rw [hp, hF]
  · split_ifs at h1 with hd
    · omega
    · have := Tv.inside y hy; omega
  · split_ifs at h2 with hd
    · omega
    · have := Th.inside x hx; omega

/-- Locality for every format. -/
theorem locality_general {W N d : ℕ} {F : Format S} {good : S → Prop} {okT : FilterWeights ℚ → ℕ → Prop}
    {vv hv : FilterWeights ℚ → ℕ → (ℕ → S) → S} (P : PassOK N F d good okT vv hv)
    {L : Lib} {r : ResamplingFunction} {store store' into out out' : Image S} {vf hf : FilterWeights ℚ} {y x : ℕ}
    (h : AcceptedBy W N F good okT L r store into) (h' : AcceptedBy W N F good okT L r store' into)
    (hd : into.bitDepth = d) (hsz : store.width = store'.width ∧ store.height = store'.height)
    (tv : tableOf L r store.height into.height = some vf) (th : tableOf L r store.width into.width = some hf)
    (hy : y < into.height) (hx : x < into.width)
    (hp : ∀ y' x' c,
      (if store.height = into.height then y' = y
        else (vf.bound y).start ≤ y' ∧ y' < (vf.bound y).start + (vf.bound y).size) →
      (if store.width = into.width then x' = x
        else (hf.bound x).start ≤ x' ∧ x' < (hf.bound x).start + (hf.bound x).size) → c < N →
      sample store.buffer (store.strideOf N) N y' x' c = sample store'.buffer (store'.strideOf N) N y' x' c)
    (ho : genericResize W N F L r store into = some (.ok (), out))
    (ho' : genericResize W N F L r store' into = some (.ok (), out')) :
    ∀ c, c < N →
      sample out.buffer (into.strideOf N) N y x c = sample out'.buffer (into.strideOf N) N y x c := by
  obtain ⟨vf1, hf1, o, ev, eh, Tv, Th, o1, _, _, e⟩ := resize_general P h hd
  obtain ⟨vf', hf', o', ev', eh', _, _, o1', _, _, e'⟩ := resize_general P h' hd
  rw [o1] at ho
  rw [o1'] at ho'
  obtain rfl : o = out := by simpa using ho
  obtain rfl : o' = out' := by simpa using ho'
  rw [tv] at ev
  rw [th] at eh
  obtain rfl := Option.some.inj ev
  obtain rfl := Option.some.inj eh
  rw [← hsz.2, tv] at ev'
  rw [← hsz.1, th] at eh'
  obtain rfl := Option.some.inj ev'
  obtain rfl := Option.some.inj eh'
  intro c hc
  rw [e y x c hy hx hc, e' y x c hy hx hc, ← hsz.1, ← hsz.2]
  congr 1
  apply separable_congr_general P (Tv.size_pos y hy) (Th.size_pos x hx)
  intro y' x' h1 h2
  simp only [pxD]
  rw [hp y' x' c h1 h2 hc]

end PicScale
