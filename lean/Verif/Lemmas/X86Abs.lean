import Verif.Lemmas.X86

/-!
Resizes whose passes may look at any sample of the row (or column) and treat channels and positions
differently: the general form needed for the vector handlers.
-/

namespace PicScale

open Finset Spec

variable {S : Type}

/-- What is proved about two passes; the values may depend on the position and the channel. -/
structure PassAbs (N : ℕ) (F : Format S) (good : S → Prop) (okT : FilterWeights ℚ → ℕ → Prop)
    (vv : FilterWeights ℚ → ℕ → ℕ → ℕ → ℕ → (ℕ → S) → S) (hv : FilterWeights ℚ → ℕ → ℕ → (ℕ → S) → S) : Prop where
  vertical : ∀ (src dst : Image S) (fw : FilterWeights ℚ), src.validate N = .ok () →
    dst.validate N = .ok () → src.width = dst.width → 0 < dst.width →
    ValidTable fw src.height dst.height → okT fw dst.height → (∀ v ∈ src.buffer, good v) →
    ∃ out, F.vertical src dst fw = some out ∧ SameShape out dst ∧ PaddingKept N dst out ∧
      ∀ y x c, y < dst.height → x < dst.width → c < N →
        sample out.buffer (dst.strideOf N) N y x c = some (vv fw src.width y x c (fun y' =>
          pxD F.default src.buffer (src.strideOf N) N y' x c))
  horizontal : ∀ (src dst : Image S) (fw : FilterWeights ℚ), src.validate N = .ok () →
    dst.validate N = .ok () → src.height = dst.height → 0 < src.width → 0 < dst.width →
    ValidTable fw src.width dst.width → okT fw dst.width → (∀ v ∈ src.buffer, good v) →
    ∃ out, F.horizontal src dst fw = some out ∧ SameShape out dst ∧ PaddingKept N dst out ∧
      ∀ y x c, y < dst.height → x < dst.width → c < N →
        sample out.buffer (dst.strideOf N) N y x c = some (hv fw x c (fun x' =>
          pxD F.default src.buffer (src.strideOf N) N y x' c))
  good_v : ∀ fw w y x c p, good (vv fw w y x c p)
  cong_h : ∀ fw inn out x c p p', ValidTable fw inn out → okT fw out → x < out → c < N →
    (∀ x', x' < inn → p x' = p' x') → hv fw x c p = hv fw x c p'

/-- Columns first, then rows; a dimension that does not change is not filtered. -/
def sepAbs (sw sh dw dh : ℕ) (vv : ℕ → ℕ → ℕ → (ℕ → S) → S) (hv : ℕ → ℕ → (ℕ → S) → S) (c : ℕ)
    (p : ℕ → ℕ → S) (y x : ℕ) : S :=
  let col := fun x' => if sh = dh then p y x' else vv y x' c (fun y' => p y' x')
  if sw = dw then col x else hv x c col

theorem convolve_abs {W N : ℕ} {F : Format S} {good : S → Prop} {okT : FilterWeights ℚ → ℕ → Prop}
    {vv : FilterWeights ℚ → ℕ → ℕ → ℕ → ℕ → (ℕ → S) → S} {hv : FilterWeights ℚ → ℕ → ℕ → (ℕ → S) → S}
    (P : PassAbs N F good okT vv hv) (hN : 1 ≤ N)
    {table : ℕ → ℕ → Option (FilterWeights ℚ)} {store into : Image S} {vf hf : FilterWeights ℚ}
    (hs : store.validate N = .ok ()) (hd : into.validate N = .ok ()) (hsw : 0 < store.width)
    (hdw : 0 < into.width)
    (hne : store.width ≠ into.width ∨ store.height ≠ into.height)
    (hfit : store.width * into.height * N < W)
    (ev : table store.height into.height = some vf) (eh : table store.width into.width = some hf)
    (Tv : ValidTable vf store.height into.height) (Th : ValidTable hf store.width into.width)
    (Ov : okT vf into.height) (Oh : okT hf into.width) (hg : ∀ v ∈ store.buffer, good v) :
    ∃ out, convolve W N F table store into = some out ∧ SameShape out into ∧ PaddingKept N into out ∧
      ∀ y x c, y < into.height → x < into.width → c < N →
        sample out.buffer (into.strideOf N) N y x c = some (sepAbs store.width store.height
          into.width into.height (vv vf store.width) (hv hf) c
          (fun y x => pxD F.default store.buffer (store.strideOf N) N y x c) y x) := by
  unfold convolve
  by_cases h1 : store.width = into.width
  · have h2 : store.height ≠ into.height := by tauto
    rw [if_neg (by tauto), if_pos h2, ev]
    obtain ⟨out, o1, o2, o3, o4⟩ := P.vertical store into vf hs hd h1 hdw Tv Ov hg
    refine ⟨out, o1, o2, o3, ?_⟩
    intro y x c hy hx hc
    rw [o4 y x c hy hx hc]
    simp only [sepAbs, if_pos h1, if_neg h2]
  by_cases h2 : store.height = into.height
  · rw [if_neg (by tauto), if_neg (by tauto), eh]
    obtain ⟨out, o1, o2, o3, o4⟩ := P.horizontal store into hf hs hd h2 hsw hdw Th Oh hg
    refine ⟨out, o1, o2, o3, ?_⟩
    intro y x c hy hx hc
    rw [o4 y x c hy hx hc]
    simp only [sepAbs, if_neg h1, if_pos h2]
  · rw [if_pos ⟨h1, h2⟩, tempImage_some hfit, ev, eh]
    simp only [Option.bind_eq_bind, Option.bind_some]
    obtain ⟨t, t1, t2, _, t4⟩ := P.vertical store
      { buffer := List.replicate (store.width * into.height * N) F.default, channels := N,
        width := store.width, height := into.height, stride := store.width * N, bitDepth := into.bitDepth }
      vf hs (packed_validate (by rw [List.length_replicate])) rfl hsw Tv Ov hg
    obtain ⟨_, _, _, _, _, tl⟩ := t2
    simp only [List.length_replicate] at tl
    simp only [packed_strideOf] at t4
    rw [t1]
    simp only [Option.bind_some]
    have hmid : (Image.mk t.buffer N store.width into.height (store.width * N) into.bitDepth).validate N
        = .ok () := packed_validate tl
    obtain ⟨out, o1, o2, o3, o4⟩ := P.horizontal
      (Image.mk t.buffer N store.width into.height (store.width * N) into.bitDepth) into hf hmid hd rfl
      hsw hdw Th Oh (by
        intro v hv'
        obtain ⟨i, hi, rfl⟩ := List.getElem_of_mem hv'
        simp only at hi
        obtain ⟨y, x, c, hy, hx, hc, rfl⟩ := packed_pixel hN hsw (tl ▸ hi)
        have := t4 y x c hy hx hc
        simp only [sample] at this
        rw [List.getElem?_eq_getElem hi] at this
        rw [Option.some.inj this]
        exact P.good_v _ _ _ _ _ _)
    refine ⟨out, o1, o2, o3, ?_⟩
    intro y x c hy hx hc
    rw [o4 y x c hy hx hc]
    simp only [sepAbs, if_neg h1, if_neg h2]
    congr 1
    apply P.cong_h _ _ _ _ _ _ _ Th Oh hx hc
    intro x' hx'
    rw [packed_strideOf]
    simp only [pxD]
    rw [t4 y _ c hy hx' hc]
    rfl

/-- Both passes return whatever the sample values: so does the resize. -/
theorem convolve_total {W N : ℕ} {F : Format S} {okT : FilterWeights ℚ → ℕ → Prop}
    (hvert : ∀ (src dst : Image S) (fw : FilterWeights ℚ), src.validate N = .ok () →
      dst.validate N = .ok () → src.width = dst.width → 0 < dst.width →
      ValidTable fw src.height dst.height → okT fw dst.height →
      ∃ out, F.vertical src dst fw = some out ∧ SameShape out dst ∧ PaddingKept N dst out)
    (hhor : ∀ (src dst : Image S) (fw : FilterWeights ℚ), src.validate N = .ok () →
      dst.validate N = .ok () → src.height = dst.height → 0 < src.width → 0 < dst.width →
      ValidTable fw src.width dst.width → okT fw dst.width →
      ∃ out, F.horizontal src dst fw = some out ∧ SameShape out dst ∧ PaddingKept N dst out)
    {table : ℕ → ℕ → Option (FilterWeights ℚ)} {store into : Image S} {vf hf : FilterWeights ℚ}
    (hs : store.validate N = .ok ()) (hd : into.validate N = .ok ()) (hsw : 0 < store.width)
    (hdw : 0 < into.width)
    (hne : store.width ≠ into.width ∨ store.height ≠ into.height)
    (hfit : store.width * into.height * N < W)
    (ev : table store.height into.height = some vf) (eh : table store.width into.width = some hf)
    (Tv : ValidTable vf store.height into.height) (Th : ValidTable hf store.width into.width)
    (Ov : okT vf into.height) (Oh : okT hf into.width) :
    ∃ out, convolve W N F table store into = some out ∧ SameShape out into ∧ PaddingKept N into out := by
  unfold convolve
  by_cases h1 : store.width = into.width
  · have h2 : store.height ≠ into.height := by tauto
    rw [if_neg (by tauto), if_pos h2, ev]
    exact hvert store into vf hs hd h1 hdw Tv Ov
  by_cases h2 : store.height = into.height
  · rw [if_neg (by tauto), if_neg (by tauto), eh]
    exact hhor store into hf hs hd h2 hsw hdw Th Oh
  · rw [if_pos ⟨h1, h2⟩, tempImage_some hfit, ev, eh]
    simp only [Option.bind_eq_bind, Option.bind_some]
    obtain ⟨t, t1, t2, _⟩ := hvert store
      { buffer := List.replicate (store.width * into.height * N) F.default, channels := N,
        width := store.width, height := into.height, stride := store.width * N, bitDepth := into.bitDepth }
      vf hs (packed_validate (by rw [List.length_replicate])) rfl hsw Tv Ov
    obtain ⟨_, _, _, _, _, tl⟩ := t2
    simp only [List.length_replicate] at tl
    rw [t1]
    simp only [Option.bind_some]
    exact hhor (Image.mk t.buffer N store.width into.height (store.width * N) into.bitDepth) into hf
      (packed_validate tl) hd rfl hsw hdw Th Oh

end PicScale
