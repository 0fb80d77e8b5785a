import Verif.Lemmas.Alpha
import Verif.Lemmas.Resize

namespace PicScale

open Spec

variable {S : Type}

/-- The alpha operations of a format on images of depth `d` are pixel operations. -/
structure AlphaOK (A : AlphaOps S) (d : ℕ) (good : S → Prop) (pc uc : S → S → S) (pa ua : S → S) : Prop where
  pre : ∀ src dst, dst.bitDepth = d → A.premultiply src dst = premultiplyImage (pixelOp pc pa) src dst
  unp : ∀ img, img.bitDepth = d → A.unpremultiply img = unpremultiplyImage (pixelOp uc ua) img
  good_c : ∀ c a, good c → good a → good (pc c a)
  good_a : ∀ a, good a → good (pa a)

/-- The picture a resize with alpha works on. -/
def workPicture (needed : Bool) (pc : S → S → S) (pa : S → S) (p : ℕ → ℕ → ℕ → S) (y x c : ℕ) : S :=
  if needed then pixelVal pc pa (p y x) c else p y x c

theorem sameShape_strideOf {N : ℕ} {a b : Image S} (h : SameShape a b) : a.strideOf N = b.strideOf N := by
  obtain ⟨w, _, s, _⟩ := h
  unfold Image.strideOf; rw [w, s]

theorem sameShape_validate {N : ℕ} {a b : Image S} (h : SameShape a b) (hb : b.validate N = .ok ()) :
    a.validate N = .ok () := by
  obtain ⟨hl, _⟩ := validate_facts hb
  have hs := sameShape_strideOf (N := N) h
  obtain ⟨w, hh, s, _, _, l⟩ := h
  unfold Image.validate at hb ⊢
  simp only at hb ⊢
  rw [hs, hh, l, s, w] 
  rw [if_neg (by rw [hl, not_not])] at hb ⊢
  split_ifs at hb ⊢ with h2
  rfl

theorem withAlpha_spec {W d : ℕ} {F : Format S} {good : S → Prop} {okT : FilterWeights ℚ → ℕ → Prop}
    {vv hv : FilterWeights ℚ → ℕ → (ℕ → S) → S} {A : AlphaOps S} {pc uc : S → S → S} {pa ua : S → S}
    (P : PassOK 4 F d good okT vv hv) (K : AlphaOK A d good pc uc pa ua)
    {L : Lib} {r : ResamplingFunction} {store into : Image S} {vf hf : FilterWeights ℚ}
    (hchk : checkResize W 4 F.shouldHaveBitDepth store into = .ok ()) (hr : r ≠ .nearest)
    (hbd : into.bitDepth = d)
    (hne : store.width ≠ into.width ∨ store.height ≠ into.height)
    (hfit : store.width * into.height * 4 < W) (hfit' : store.width * store.height * 4 < W)
    (ev : tableOf L r store.height into.height = some vf) (eh : tableOf L r store.width into.width = some hf)
    (Tv : ValidTable vf store.height into.height) (Th : ValidTable hf store.width into.width)
    (Ov : okT vf into.height) (Oh : okT hf into.width) (hg : ∀ v ∈ store.buffer, good v)
    (hgd : good F.default) :
    ∃ out, genericResizeWithAlpha W 4 F A L r store into true = some (.ok (), out) ∧ SameShape out into ∧
      PaddingKept 4 into out ∧
      ∀ y x c, y < into.height → x < into.width → c < 4 →
        sample out.buffer (into.strideOf 4) 4 y x c = some (pixelVal uc ua (fun c =>
          separable store.width store.height into.width into.height (fun i => (vf.bound i).start) (vv vf)
            (fun i => (hf.bound i).start) (hv hf) (fun y x => workPicture (A.isNeeded store) pc pa
              (fun y x c => pxD F.default store.buffer (store.strideOf 4) 4 y x c) y x c) y x) c) := by
  obtain ⟨c1, c2, c3, _⟩ := checkResize_ok.1 hchk
  -- the (possibly premultiplied) source
  have hsrc : ∃ src, premultiplied W 4 F A true store into = some src ∧ src.validate 4 = .ok () ∧
      src.width = store.width ∧ src.height = store.height ∧ (∀ v ∈ src.buffer, good v) ∧
      ∀ y x c, y < store.height → x < store.width → c < 4 →
        pxD F.default src.buffer (src.strideOf 4) 4 y x c = workPicture (A.isNeeded store) pc pa
              (fun y x c => pxD F.default store.buffer (store.strideOf 4) 4 y x c) y x c := by
    unfold premultiplied
    by_cases hn : A.isNeeded store = true
    · rw [if_pos ⟨rfl, hn⟩, tempImage_some hfit']
      simp only [Option.bind_eq_bind, Option.bind_some]
      rw [K.pre _ _ (show (Image.mk (List.replicate (store.width * store.height * 4) F.default) 4 store.width
        store.height (store.width * 4) into.bitDepth).bitDepth = d from hbd)]
      obtain ⟨t, t1, t2, _, t4⟩ := premultiplyImage_spec pc pa F.default (src := store)
        (dst := ⟨List.replicate (store.width * store.height * 4) F.default, 4, store.width, store.height,
          store.width * 4, into.bitDepth⟩) c2 (packed_validate (by rw [List.length_replicate])) rfl rfl c3.1
      rw [t1]
      simp only [Option.bind_some]
      obtain ⟨_, _, _, _, _, tl⟩ := t2
      simp only [List.length_replicate] at tl
      simp only [packed_strideOf] at t4
      have hgood : ∀ y x c, good (pxD F.default store.buffer (store.strideOf 4) 4 y x c) := by
        intro y x c
        simp only [pxD, sample]
        rcases h : store.buffer[y * store.strideOf 4 + x * 4 + c]? with _ | v
        · exact hgd
        · exact hg v (List.mem_of_getElem? h)
      refine ⟨_, rfl, packed_validate tl, rfl, rfl, ?_, ?_⟩
      · intro v hv'
        obtain ⟨i, hi, rfl⟩ := List.getElem_of_mem hv'
        simp only at hi
        obtain ⟨y, x, c, hy, hx, hc, rfl⟩ := packed_pixel (by omega) c3.1 (tl ▸ hi)
        have := t4 y x c hy hx hc
        simp only [sample] at this
        rw [List.getElem?_eq_getElem hi] at this
        rw [Option.some.inj this]
        unfold pixelVal
        split_ifs
        · exact K.good_c _ _ (hgood _ _ _) (hgood _ _ _)
        · exact K.good_a _ (hgood _ _ _)
      · intro y x c hy hx hc
        rw [packed_strideOf]
        simp only [workPicture, hn, if_true]
        simp only [pxD]
        rw [t4 y x c hy hx hc]
        rfl
    · rw [if_neg (by tauto)]
      refine ⟨store, rfl, c2, rfl, rfl, hg, ?_⟩
      intro y x c _ _ _
      simp [workPicture, hn]
  obtain ⟨src, s1, s2, s3, s4, s5, s6⟩ := hsrc
  obtain ⟨m, m1, m2, m3, m4⟩ := convolve_spec (W := W) P (by omega) (table := tableOf L r) (store := src) (into := into)
    (vf := vf) (hf := hf) s2 c1 (by omega) c3.2.2.1 hbd (by rw [s3, s4]; exact hne) (by rw [s3]; exact hfit)
    (by rw [s4]; exact ev) (by rw [s3]; exact eh) (by rw [s4]; exact Tv) (by rw [s3]; exact Th) Ov Oh s5
  have hmd : m.bitDepth = d := by rw [← hbd]; exact m2.2.2.2.2.1
  have hmw : m.width = into.width := m2.1
  obtain ⟨out, o1, o2, o3, o4⟩ := unpremultiplyImage_spec uc ua F.default (img := m) (sameShape_validate m2 c1)
    (by rw [m2.1]; exact c3.2.2.1)
  have hst : m.strideOf 4 = into.strideOf 4 := sameShape_strideOf m2
  refine ⟨out, ?_, ?_, ?_, ?_⟩
  · unfold genericResizeWithAlpha
    rw [hchk]
    simp only
    rw [if_neg (by tauto), if_neg hr, s1]
    simp only [Option.bind_eq_bind, Option.bind_some]
    rw [m1]
    simp only [Option.bind_some, if_true]
    rw [K.unp _ hmd, o1]
    rfl
  · obtain ⟨a1, a2, a3, a4, a5, a6⟩ := o2
    obtain ⟨b1, b2, b3, b4, b5, b6⟩ := m2
    exact ⟨a1.trans b1, a2.trans b2, a3.trans b3, a4.trans b4, a5.trans b5, a6.trans b6⟩
  · intro p hp
    rw [← m3 p hp]
    apply o3
    rw [hst, m2.1, m2.2.1]
    exact hp
  · intro y x c hy hx hc
    rw [hst] at o4
    rw [o4 y x c (by rw [m2.2.1]; exact hy) (by rw [hmw]; exact hx) hc]
    congr 1
    have hval : ∀ c, c < 4 → pxD F.default m.buffer (into.strideOf 4) 4 y x c =
          separable store.width store.height into.width into.height (fun i => (vf.bound i).start) (vv vf)
            (fun i => (hf.bound i).start) (hv hf) (fun y x => workPicture (A.isNeeded store) pc pa
              (fun y x c => pxD F.default store.buffer (store.strideOf 4) 4 y x c) y x c) y x := by
      intro c hc
      simp only [pxD]
      rw [m4 y x c hy hx hc, s3, s4]
      simp only [Option.getD_some]
      unfold separable
      simp only
      have hcol : ∀ x', x' < store.width →
          (if store.height = into.height then pxD F.default src.buffer (src.strideOf 4) 4 y x' c
            else vv vf y fun k => pxD F.default src.buffer (src.strideOf 4) 4 ((vf.bound y).start + k) x' c) =
          (if store.height = into.height then workPicture (A.isNeeded store) pc pa
              (fun y x c => pxD F.default store.buffer (store.strideOf 4) 4 y x c) y x' c
            else vv vf y fun k => workPicture (A.isNeeded store) pc pa
              (fun y x c => pxD F.default store.buffer (store.strideOf 4) 4 y x c) ((vf.bound y).start + k) x' c) := by
        intro x' hx'
        split_ifs with h1
        · exact s6 y x' c (by omega) hx' hc
        · apply P.cong_v _ _ _ _ (Tv.size_pos y hy)
          intro k hk
          have := Tv.inside y hy
          exact s6 _ x' c (by omega) hx' hc
      by_cases h1 : store.width = into.width
      · rw [if_pos h1, if_pos h1]
        exact hcol x (by omega)
      · rw [if_neg h1, if_neg h1]
        apply P.cong_h _ _ _ _ (Th.size_pos x hx)
        intro k hk
        have := Th.inside x hx
        exact hcol _ (by omega)
    simp only [pixelVal]
    rw [hval c hc, hval 3 (by omega)]

end PicScale
