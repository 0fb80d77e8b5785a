import Verif.Model.Resize
import Verif.SpecResize
import Verif.Props.Passes
import Verif.Props.Weights
import Verif.Props.Store
import Verif.Props.Nearest

namespace PicScale

open Spec

variable {S : Type}

/-- What is proved about the two passes of a format writing images of depth `d`. -/
structure PassOK (N : ℕ) (F : Format S) (d : ℕ) (good : S → Prop) (okT : FilterWeights ℚ → ℕ → Prop)
    (vv hv : FilterWeights ℚ → ℕ → (ℕ → S) → S) : Prop where
  vertical : ∀ (src dst : Image S) (fw : FilterWeights ℚ), src.validate N = .ok () →
    dst.validate N = .ok () → src.width = dst.width → 0 < dst.width → dst.bitDepth = d →
    ValidTable fw src.height dst.height → okT fw dst.height → (∀ v ∈ src.buffer, good v) →
    ∃ out, F.vertical src dst fw = some out ∧ SameShape out dst ∧ PaddingKept N dst out ∧
      ∀ y x c, y < dst.height → x < dst.width → c < N →
        sample out.buffer (dst.strideOf N) N y x c = some (vv fw y (fun k =>
          pxD F.default src.buffer (src.strideOf N) N ((fw.bound y).start + k) x c))
  horizontal : ∀ (src dst : Image S) (fw : FilterWeights ℚ), src.validate N = .ok () →
    dst.validate N = .ok () → src.height = dst.height → 0 < src.width → 0 < dst.width →
    dst.bitDepth = d →
    ValidTable fw src.width dst.width → okT fw dst.width → (∀ v ∈ src.buffer, good v) →
    ∃ out, F.horizontal src dst fw = some out ∧ SameShape out dst ∧ PaddingKept N dst out ∧
      ∀ y x c, y < dst.height → x < dst.width → c < N →
        sample out.buffer (dst.strideOf N) N y x c = some (hv fw x (fun k =>
          pxD F.default src.buffer (src.strideOf N) N y ((fw.bound x).start + k) c))
  good_v : ∀ fw i p, good (vv fw i p)
  cong_v : ∀ fw i p p', 1 ≤ (fw.bound i).size → (∀ k, k < (fw.bound i).size → p k = p' k) → vv fw i p = vv fw i p'
  cong_h : ∀ fw i p p', 1 ≤ (fw.bound i).size → (∀ k, k < (fw.bound i).size → p k = p' k) → hv fw i p = hv fw i p'

theorem tempImage_some {W N : ℕ} {d : S} {w h bd : ℕ} (hf : w * h * N < W) :
    tempImage W N d w h bd = some
      { buffer := List.replicate (w * h * N) d, channels := N, width := w, height := h,
        stride := w * N, bitDepth := bd } := by
  unfold tempImage
  rw [if_neg (by omega)]
  simp [Image.fromSlice]

theorem packed_validate {N w h c bd : ℕ} {b : List S} (hb : b.length = w * h * N) :
    (Image.mk b c w h (w * N) bd).validate N = .ok () := by
  unfold Image.validate Image.strideOf
  simp only
  have e : (if w * N = 0 then w * N else w * N) = w * N := by split_ifs <;> rfl
  rw [e, hb, if_neg (by rw [not_not]; ring), if_neg (by omega)]

theorem packed_strideOf {N w h c bd : ℕ} {b : List S} : (Image.mk b c w h (w * N) bd).strideOf N = w * N := by
  unfold Image.strideOf; simp only; split_ifs <;> rfl

/-- A packed position is a pixel. -/
theorem packed_pixel {N w h i : ℕ} (hN : 1 ≤ N) (hw : 1 ≤ w) (hi : i < w * h * N) :
    ∃ y x c, y < h ∧ x < w ∧ c < N ∧ i = y * (w * N) + x * N + c := by
  have hp : 0 < w * N := Nat.mul_pos hw hN
  refine ⟨i / (w * N), i % (w * N) / N, i % (w * N) % N, ?_, ?_, Nat.mod_lt _ hN, ?_⟩
  · rw [Nat.div_lt_iff_lt_mul hp]; calc i < _ := hi
      _ = _ := by ring
  · rw [Nat.div_lt_iff_lt_mul hN]; exact Nat.mod_lt _ hp
  · rw [Nat.add_assoc, Nat.div_add_mod', Nat.div_add_mod']

theorem convolve_spec {W N d : ℕ} {F : Format S} {good : S → Prop} {okT : FilterWeights ℚ → ℕ → Prop}
    {vv hv : FilterWeights ℚ → ℕ → (ℕ → S) → S} (P : PassOK N F d good okT vv hv) (hN : 1 ≤ N)
    {table : ℕ → ℕ → Option (FilterWeights ℚ)} {store into : Image S} {vf hf : FilterWeights ℚ}
    (hs : store.validate N = .ok ()) (hd : into.validate N = .ok ()) (hsw : 0 < store.width)
    (hdw : 0 < into.width) (hbd : into.bitDepth = d)
    (hne : store.width ≠ into.width ∨ store.height ≠ into.height)
    (hfit : store.width * into.height * N < W)
    (ev : table store.height into.height = some vf) (eh : table store.width into.width = some hf)
    (Tv : ValidTable vf store.height into.height) (Th : ValidTable hf store.width into.width)
    (Ov : okT vf into.height) (Oh : okT hf into.width) (hg : ∀ v ∈ store.buffer, good v) :
    ∃ out, convolve W N F table store into = some out ∧ SameShape out into ∧ PaddingKept N into out ∧
      ∀ y x c, y < into.height → x < into.width → c < N →
        sample out.buffer (into.strideOf N) N y x c = some (separable store.width store.height
          into.width into.height (fun i => (vf.bound i).start) (vv vf) (fun i => (hf.bound i).start) (hv hf)
          (fun y x => pxD F.default store.buffer (store.strideOf N) N y x c) y x) := by
  unfold convolve
  by_cases h1 : store.width = into.width
  · have h2 : store.height ≠ into.height := by tauto
    rw [if_neg (by tauto), if_pos h2, ev]
    obtain ⟨out, o1, o2, o3, o4⟩ := P.vertical store into vf hs hd h1 hdw hbd Tv Ov hg
    refine ⟨out, o1, o2, o3, ?_⟩
    intro y x c hy hx hc
    rw [o4 y x c hy hx hc]
    simp only [separable, if_pos h1, if_neg h2]
  by_cases h2 : store.height = into.height
  · rw [if_neg (by tauto), if_neg (by tauto), eh]
    obtain ⟨out, o1, o2, o3, o4⟩ := P.horizontal store into hf hs hd h2 hsw hdw hbd Th Oh hg
    refine ⟨out, o1, o2, o3, ?_⟩
    intro y x c hy hx hc
    rw [o4 y x c hy hx hc]
    simp only [separable, if_neg h1, if_pos h2]
  · rw [if_pos ⟨h1, h2⟩, tempImage_some hfit, ev, eh]
    simp only [Option.bind_eq_bind, Option.bind_some]
    obtain ⟨t, t1, t2, _, t4⟩ := P.vertical store
      { buffer := List.replicate (store.width * into.height * N) F.default, channels := N,
        width := store.width, height := into.height, stride := store.width * N, bitDepth := into.bitDepth }
      vf hs (packed_validate (by rw [List.length_replicate])) rfl hsw hbd Tv Ov hg
    obtain ⟨_, _, _, _, _, tl⟩ := t2
    simp only [List.length_replicate] at tl
    simp only [packed_strideOf] at t4
    rw [t1]
    simp only [Option.bind_some]
    have hmid : (Image.mk t.buffer N store.width into.height (store.width * N) into.bitDepth).validate N
        = .ok () := packed_validate tl
    obtain ⟨out, o1, o2, o3, o4⟩ := P.horizontal
      (Image.mk t.buffer N store.width into.height (store.width * N) into.bitDepth) into hf hmid hd rfl
      hsw hdw hbd Th Oh (by
        intro v hv'
        obtain ⟨i, hi, rfl⟩ := List.getElem_of_mem hv'
        simp only at hi
        obtain ⟨y, x, c, hy, hx, hc, rfl⟩ := packed_pixel hN hsw (tl ▸ hi)
        have := t4 y x c hy hx hc
        simp only [sample] at this
        rw [List.getElem?_eq_getElem hi] at this
        rw [Option.some.inj this]
        exact P.good_v _ _ _)
    refine ⟨out, o1, o2, o3, ?_⟩
    intro y x c hy hx hc
    rw [o4 y x c hy hx hc]
    simp only [separable, if_neg h1, if_neg h2]
    congr 1
    apply P.cong_h _ _ _ _ (Th.size_pos x hx)
    intro k hk
    have hin := Th.inside x hx
    rw [packed_strideOf]
    simp only [pxD]
    rw [t4 y _ c hy (by omega) hc]
    rfl

/-! ### the checks -/

theorem checkResize_ok {W N : ℕ} {b : Bool} {store into : Image S} :
    checkResize W N b store into = .ok () ↔
      into.validate N = .ok () ∧ store.validate N = .ok () ∧
      (0 < store.width ∧ 0 < store.height ∧ 0 < into.width ∧ 0 < into.height) ∧
      checkImageSizeOverflow W store.width store.height store.channels = false ∧
      checkImageSizeOverflow W into.width into.height store.channels = false ∧
      (b = true → 1 ≤ into.bitDepth ∧ into.bitDepth ≤ 16) := by
  unfold checkResize
  cases h1 : into.validate N with
  | error e => simp [bind, Except.bind]
  | ok u =>
  cases h2 : store.validate N with
  | error e => simp [bind, Except.bind]
  | ok u =>
  simp only [bind, Except.bind, pure, Except.pure, throw, throwThe, MonadExceptOf.throw, true_and]
  by_cases h3 : store.width = 0 ∨ store.height = 0 ∨ into.width = 0 ∨ into.height = 0
  · simp only [h3, if_true]
    simp; omega
  · simp only [h3, if_false]
    cases h4 : checkImageSizeOverflow W store.width store.height store.channels
    · cases h5 : checkImageSizeOverflow W into.width into.height store.channels
      · cases b
        · simp; omega
        · by_cases h6 : 1 ≤ into.bitDepth ∧ into.bitDepth ≤ 16
          · simp [h6]; omega
          · simp only [h6]; simp
      · simp
    · simp

theorem genericResize_conv {W N : ℕ} {F : Format S} {L : Lib} {r : ResamplingFunction}
    {store into out : Image S} (hc : checkResize W N F.shouldHaveBitDepth store into = .ok ())
    (hr : r ≠ .nearest) (hne : store.width ≠ into.width ∨ store.height ≠ into.height)
    (h : convolve W N F (tableOf L r) store into = some out) :
    genericResize W N F L r store into = some (.ok (), out) := by
  unfold genericResize
  rw [hc]
  simp only
  rw [if_neg (by tauto), if_neg hr, h]
  rfl

end PicScale
