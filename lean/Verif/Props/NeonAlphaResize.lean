import Verif.Lemmas.AlphaCompose
import Verif.Props.Neon
import Verif.Props.NeonAlpha
import Verif.Props.AlphaX86Resize

/-!
Property theorems about RGBA8 resizes with alpha on AArch64: C153, C154.
-/

namespace PicScale

open Spec

/-! ### C153: the whole call -/

theorem roundDiv_le {c a : ℕ} (hc : c ≤ 255) (ha : a ≤ 255) : roundDiv (c * a) 255 ≤ 255 := by
  have := Nat.mul_le_mul hc ha
  rw [roundDiv_eq (by omega)]
  omega

/-- The first step: the premultiplied copy. -/
theorem premultiplied_neon {rdm : Bool} {s : Workload} {W : ℕ} {L : Lib} {r : ResamplingFunction}
    {store into : Image ℕ} (h : AcceptedX86 W 4 L r store into) (hch : store.channels = 4) :
    ∃ work, premultiplied W 4 (formatNeon rdm s 4) alphaNeonU8 true store into = some work ∧
      work.width = store.width ∧ work.height = store.height ∧
      (¬ AlphaVaries store → work = store) ∧ (AlphaVaries store → PremultipliedCopyNeon store work) ∧
      AcceptedX86 W 4 L r work into := by
  obtain ⟨c1, c2, c3, c4, _⟩ := checkResize_ok.1 h.call.checked
  rw [hch] at c4
  have hfit := fits_of_overflow c4
  have hneed := C151_alpha_check_partial c2 c3.1 c3.2.1 h.bytes h.call.small.1
  unfold premultiplied
  by_cases hn : alphaNeonU8.isNeeded store = true
  · rw [if_pos ⟨rfl, hn⟩, tempImage_some hfit]
    simp only [Option.bind_eq_bind, Option.bind_some]
    have hv := packed_validate (N := 4) (w := store.width) (h := store.height) (c := 4) (bd := into.bitDepth)
      (b := List.replicate (store.width * store.height * 4) (formatNeon rdm s 4).default) (by rw [List.length_replicate])
    obtain ⟨t, t1, t2, _, t4⟩ := C147_premultiply_neon (src := store)
        (dst := ⟨List.replicate (store.width * store.height * 4) (formatNeon rdm s 4).default, 4, store.width, store.height,
          store.width * 4, into.bitDepth⟩) c2 hv rfl rfl c3.1 h.bytes
    obtain ⟨t', t1', t4'⟩ := premultiply_neon (src := store)
        (dst := ⟨List.replicate (store.width * store.height * 4) (formatNeon rdm s 4).default, 4, store.width, store.height,
          store.width * 4, into.bitDepth⟩) c2 hv rfl rfl c3.1 h.bytes
    obtain rfl : t = t' := by rw [t1] at t1'; simpa using t1'
    rw [t1]
    simp only [Option.bind_some]
    obtain ⟨_, _, _, _, _, tl⟩ := t2
    simp only [List.length_replicate] at tl
    simp only [packed_strideOf] at t4 t4'
    have hcopy : PremultipliedCopyNeon store
        (Image.mk t.buffer 4 store.width store.height (store.width * 4) into.bitDepth) := by
      refine ⟨rfl, rfl, fun y x hy hx => ?_⟩
      rw [packed_strideOf]
      refine ⟨fun c hc => ?_, fun hk => ?_, fun hk => ?_⟩
      · simp only [pxD, t4 y x c hy hx hc, Option.getD_some]
      · unfold alphaAt pxD
        rw [t4' y x hy hx, if_pos hk, Option.getD_some]; rfl
      · unfold alphaAt pxD
        rw [t4' y x hy hx, if_neg hk, Option.getD_some]; rfl
    refine ⟨_, rfl, rfl, rfl, fun hv => absurd (hneed.1 hn) hv, fun _ => hcopy, ?_, ?_, ?_⟩
    · exact ⟨h.call.channels, check_packed h.call.checked hch tl, h.call.filter, h.call.sizes, h.call.small, h.call.area,
        h.call.fits⟩
    · intro v hv
      obtain ⟨i, hi, rfl⟩ := List.getElem_of_mem hv
      simp only at hi
      obtain ⟨y, x, c, hy, hx, hc, rfl⟩ := packed_pixel (N := 4) (by omega) c3.1 (tl ▸ hi)
      obtain ⟨_, _, hp⟩ := hcopy
      obtain ⟨p1, p2, p3⟩ := hp y x hy hx
      rw [packed_strideOf] at p1 p2 p3
      have e : ∀ d, pxD 0 t.buffer (store.width * 4) 4 y x d = t.buffer.getD (y * (store.width * 4) + x * 4 + d) 0 := by
        intro d; simp [pxD, sample]
      have e' : t.buffer[y * (store.width * 4) + x * 4 + c] = pxD 0 t.buffer (store.width * 4) 4 y x c := by
        rw [e, List.getD_eq_getElem?_getD, List.getElem?_eq_getElem hi, Option.getD_some]
      show t.buffer[y * (store.width * 4) + x * 4 + c] ≤ 255
      rw [e']
      have ha : alphaAt store.buffer (store.strideOf 4) y x ≤ 255 := pxD_le255' h.bytes y x 3
      by_cases hc3 : c < 3
      · rw [show pxD 0 t.buffer (store.width * 4) 4 y x c = _ from p1 c hc3]
        exact roundDiv_le (pxD_le255' h.bytes y x c) ha
      · have : c = 3 := by omega
        subst this
        show alphaAt t.buffer (store.width * 4) y x ≤ 255
        by_cases hx16 : x < store.width / 16 * 16
        · rw [show alphaAt t.buffer (store.width * 4) y x = _ from p2 hx16]; exact ha
        · rw [show alphaAt t.buffer (store.width * 4) y x = _ from p3 hx16]; exact roundDiv_le ha ha
    · exact h.noOverflow
  · rw [if_neg (by tauto)]
    exact ⟨store, rfl, rfl, rfl, fun _ => rfl, fun hv => absurd (hneed.2 hv) hn, h⟩

theorem NeonH.value_le (k : NeonH) (N : ℕ) (q : FilterWeights ℤ) (x : ℕ) (P : ℕ → ℕ) : k.value N q x P ≤ 255 := by
  unfold NeonH.value
  split <;> exact clamp_le _ _

/-- Every sample of a resized image is a byte. -/
theorem neon_bytes {rdm : Bool} {s : Workload} {W N : ℕ} {L : Lib} {r : ResamplingFunction} {store into out : Image ℕ}
    (h : AcceptedX86 W N L r store into)
    (h16 : selectNeonH rdm s N store.width into.height into.width into.height = .rdm → BothTables L r store into NoOverflow16)
    (ho : genericResize W N (formatNeon rdm s N) L r store into = some (.ok (), out)) :
    ∀ y x c, y < into.height → x < into.width → c < N → pxD 0 out.buffer (into.strideOf N) N y x c ≤ 255 := by
  obtain ⟨_, _, out', _, _, _, _, _, _, o1, _, _, o4⟩ := neon_values h h16
  rw [ho] at o1
  simp only [Option.some.injEq, Prod.mk.injEq, true_and] at o1
  subst o1
  intro y x c hy hx hcN
  unfold pxD
  rw [o4 y x c hy hx hcN, Option.getD_some]
  unfold sepAbs
  dsimp only
  split_ifs
  · exact pxD_byte h.bytes N c _ _
  · exact NeonV.value_le _ _ _ _ _ _
  · exact NeonH.value_le _ _ _ _ _
  · exact NeonH.value_le _ _ _ _ _

/-- **C153.** RGBA8 with `premultiply_alpha = true` on AArch64: the call returns `Ok`, no access leaves a buffer, row
padding is kept, and the result is the plain resize of `work` with its colours divided by its alpha, where `work`
is the source if its alpha is constant and a premultiplied copy otherwise (whose alpha is squared in the last
`width % 16` columns, `C148_violated`). With the `rdm` handlers (`PreferSpeed`) the 16-bit accumulators must not overflow. -/
theorem C153_alpha_pipeline_neon {rdm : Bool} {s : Workload} {W : ℕ} {L : Lib} {r : ResamplingFunction}
    {store into : Image ℕ} (h : AcceptedX86 W 4 L r store into) (hch : store.channels = 4)
    (h16 : Full32 rdm s ∨ BothTables L r store into NoOverflow16) :
    ∃ work mid out,
      (¬ AlphaVaries store → work = store) ∧ (AlphaVaries store → PremultipliedCopyNeon store work) ∧
      AcceptedX86 W 4 L r work into ∧
      genericResize W 4 (formatNeon rdm s 4) L r work into = some (.ok (), mid) ∧
      genericResizeWithAlpha W 4 (formatNeon rdm s 4) alphaNeonU8 L r store into true = some (.ok (), out) ∧
      SameShape out into ∧ PaddingKept 4 into out ∧
      ∀ y x, y < into.height → x < into.width → ∃ a, a ≤ 255 ∧ sample mid.buffer (into.strideOf 4) 4 y x 3 = some a ∧
        sample out.buffer (into.strideOf 4) 4 y x 3 = some a ∧
        ∀ c, c < 3 → ∃ p v, p ≤ 255 ∧ sample mid.buffer (into.strideOf 4) 4 y x c = some p ∧
          sample out.buffer (into.strideOf 4) 4 y x c = some v ∧ UnpremultipliedEst p a v := by
  obtain ⟨work, w1, w2, w3, w4, w5, w6⟩ := premultiplied_neon (rdm := rdm) (s := s) h hch
  obtain ⟨mid, m1, m2, m3⟩ := C138_neon_no_oob (rdm := rdm) (s := s) (L := L) w6.call
  have h16' : selectNeonH rdm s 4 work.width into.height into.width into.height = .rdm →
      BothTables L r work into NoOverflow16 := by
    intro he
    rcases h16 with h16 | h16
    · obtain ⟨D, e⟩ := selectNeonH_full h16 (N := 4) ⟨by omega, by omega⟩ (by omega) work.width into.height into.width into.height
      rw [e] at he
      exact absurd he (by simp)
    · unfold BothTables
      rw [w2, w3]
      exact h16
  have hmb := neon_bytes w6 h16' m1
  obtain ⟨c1, c2, c3, c4, _⟩ := checkResize_ok.1 h.call.checked
  have hst : mid.strideOf 4 = into.strideOf 4 := sameShape_strideOf m2
  have hmw : mid.width = into.width := m2.1
  have hmh : mid.height = into.height := m2.2.1
  have hv := sameShape_validate m2 c1
  obtain ⟨out, o1, o2, o3, o4⟩ := unpremultiply_neon (img := mid) hv (by rw [hmw]; exact c3.2.2.1)
    (by rw [hst, hmw, hmh]; exact hmb)
  rw [hst, hmw, hmh] at o4
  refine ⟨work, mid, out, w4, w5, w6, m1, withAlpha_compose h.call.checked h.call.filter h.call.sizes w1 w2 w3 m1 o1, ?_, ?_, ?_⟩
  · obtain ⟨a1, a2, a3, a4, a5, a6⟩ := o2
    obtain ⟨b1, b2, b3, b4, b5, b6⟩ := m2
    exact ⟨a1.trans b1, a2.trans b2, a3.trans b3, a4.trans b4, a5.trans b5, a6.trans b6⟩
  · intro p hp
    rw [← m3 p hp]
    apply o3
    rw [hst, hmw, hmh]
    exact hp
  · intro y x hy hx
    have hsamp : ∀ c, c < 4 → sample mid.buffer (into.strideOf 4) 4 y x c = some (pxD 0 mid.buffer (into.strideOf 4) 4 y x c) := by
      intro c hcc
      obtain ⟨hl, hs⟩ := validate_facts hv
      rw [hst, hmh] at hl
      rw [hst, hmw] at hs
      unfold pxD sample
      rw [List.getElem?_eq_getElem, Option.getD_some]
      rw [hl]
      have : (y + 1) * into.strideOf 4 ≤ into.height * into.strideOf 4 := Nat.mul_le_mul_right _ (by omega)
      rw [Nat.succ_mul] at this
      have hcomm : into.strideOf 4 * into.height = into.height * into.strideOf 4 := Nat.mul_comm _ _
      omega
    obtain ⟨p1, p2⟩ := o4 y x hy hx
    refine ⟨_, hmb y x 3 hy hx (by omega), hsamp 3 (by omega), p2, fun c hcc => ?_⟩
    obtain ⟨v, v1, v2⟩ := p1 c hcc
    exact ⟨_, v, hmb y x c hy hx (by omega), hsamp c (by omega), v1, v2⟩

example : ∃ out, genericResizeWithAlpha (2 ^ 64) 4 (formatNeon true .preferQuality 4) alphaNeonU8
    demoLib .bilinear Demo.avsrc Demo.avdst true = some (.ok (), out) ∧ PaddingKept 4 Demo.avdst out := by
  obtain ⟨_, _, out, _, _, _, _, h, _, h', _⟩ := C153_alpha_pipeline_neon (rdm := true) (s := .preferQuality)
    Demo.acceptedX86_v rfl (Or.inl (Or.inl rfl))
  exact ⟨out, h, h'⟩

/-! ### C154: the round trip -/

theorem round_trip_neon {c a p v : ℕ} (hc : c ≤ 255) (ha : 1 ≤ a) (hp : p = roundDiv (c * a) 255)
    (hv : UnpremultipliedEst p a v) : |(v : ℚ) - c| ≤ 255 / (2 * a) + 5 / 4 := by
  have haq : (0 : ℚ) < a := by exact_mod_cast ha
  have hcq : (c : ℚ) ≤ 255 := by exact_mod_cast hc
  have h2 := hv.2.2 (by omega)
  have hp' := roundDiv_err (c * a) 255
  rw [← hp] at hp'
  push_cast at hp'
  have key : |min (255 : ℚ) (255 * (p : ℚ) / a) - c| ≤ 255 / (2 * a) := by
    have e : (255 * (p : ℚ) / a) - c = (255 / a) * (p - c * a / 255) := by field_simp
    have h3 : |(255 * (p : ℚ) / a) - c| ≤ 255 / (2 * a) := by
      rw [e, abs_mul, abs_of_nonneg (by positivity)]
      calc 255 / (a : ℚ) * |(p : ℚ) - c * a / 255| ≤ 255 / a * (1 / 2) := by gcongr
        _ = 255 / (2 * a) := by field_simp
    rcases le_total (255 : ℚ) (255 * (p : ℚ) / a) with h | h
    · rw [min_eq_left h, abs_of_nonneg (by linarith)]
      rw [abs_le] at h3
      linarith
    · rw [min_eq_right h]; exact h3
  calc |(v : ℚ) - c| = |((v : ℚ) - min (255 : ℚ) (255 * (p : ℚ) / a)) + (min (255 : ℚ) (255 * (p : ℚ) / a) - c)| := by congr 1; ring
    _ ≤ _ := abs_add_le _ _
    _ ≤ 255 / (2 * a) + 5 / 4 := by linarith

theorem roundDiv_opaque (c : ℕ) : roundDiv (c * 255) 255 = c := by
  rw [roundDiv_eq (by omega)]
  omega

/-- **C154.** On AArch64, premultiplying any RGBA8 image into any image of the same size and unpremultiplying that
returns, in the first `width / 16 * 16` columns, every alpha exactly, every colour to within `255 / (2 a) + 5/4` levels
(an opaque pixel exactly), and zero colours where alpha is zero. Missing: the other columns (`C154_violated`). -/
theorem C154_round_trip_partial {src dst : Image ℕ}
    (hs : src.validate 4 = .ok ()) (hd : dst.validate 4 = .ok ())
    (hw : src.width = dst.width) (hh : src.height = dst.height) (hp : 0 < dst.width)
    (hb : ∀ v ∈ src.buffer, v ≤ 255) :
    ∃ pre out, alphaNeonU8.premultiply src dst = some pre ∧ alphaNeonU8.unpremultiply pre = some out ∧
      SameShape out dst ∧ PaddingKept 4 dst out ∧
      ∀ y x, y < dst.height → x < dst.width / 16 * 16 →
        sample out.buffer (dst.strideOf 4) 4 y x 3 = some (alphaAt src.buffer (src.strideOf 4) y x) ∧
        ∀ c, c < 3 → ∃ v, sample out.buffer (dst.strideOf 4) 4 y x c = some v ∧
          (alphaAt src.buffer (src.strideOf 4) y x = 0 → v = 0) ∧
          (alphaAt src.buffer (src.strideOf 4) y x = 255 → v = pxD 0 src.buffer (src.strideOf 4) 4 y x c) ∧
          (alphaAt src.buffer (src.strideOf 4) y x ≠ 0 →
            |(v : ℚ) - (pxD 0 src.buffer (src.strideOf 4) 4 y x c : ℕ)| ≤
              255 / (2 * ((alphaAt src.buffer (src.strideOf 4) y x : ℕ) : ℚ)) + 5 / 4) := by
  obtain ⟨pre, p1, p2, p3, p4⟩ := C147_premultiply_neon hs hd hw hh hp hb
  obtain ⟨pre', p1', p4'⟩ := premultiply_neon hs hd hw hh hp hb
  obtain rfl : pre = pre' := by rw [p1] at p1'; simpa using p1'
  have hst : pre.strideOf 4 = dst.strideOf 4 := sameShape_strideOf p2
  have hpw : pre.width = dst.width := p2.1
  have hph : pre.height = dst.height := p2.2.1
  have hpx : ∀ y x c v, sample pre.buffer (dst.strideOf 4) 4 y x c = some v → pxD 0 pre.buffer (dst.strideOf 4) 4 y x c = v := by
    intro y x c v h; unfold pxD; rw [h, Option.getD_some]
  have hle : ∀ y x, alphaAt src.buffer (src.strideOf 4) y x ≤ 255 := fun y x => pxD_le255' hb y x 3
  have hal : ∀ y x, y < dst.height → x < dst.width → x < dst.width / 16 * 16 →
      alphaAt pre.buffer (dst.strideOf 4) y x = alphaAt src.buffer (src.strideOf 4) y x := by
    intro y x hy hx hx'
    refine hpx _ _ _ _ ?_
    rw [p4' y x hy hx, if_pos hx']
  obtain ⟨out, o1, o2, o3, o4⟩ := unpremultiply_neon (img := pre)
    (sameShape_validate p2 hd) (by rw [hpw]; exact hp) (by
      rw [hst, hpw, hph]
      intro y x c hy hx hc
      by_cases h3 : c < 3
      · rw [hpx _ _ _ _ (p4 y x c hy hx h3)]
        exact roundDiv_le (pxD_le255' hb y x c) (hle y x)
      · have : c = 3 := by omega
        subst this
        rw [hpx _ _ _ _ (p4' y x hy hx)]
        split_ifs
        · exact hle y x
        · exact roundDiv_le (hle y x) (hle y x))
  rw [hst, hpw, hph] at o4
  refine ⟨pre, out, p1, o1, ?_, ?_, ?_⟩
  · obtain ⟨a1, a2, a3, a4, a5, a6⟩ := o2
    obtain ⟨b1, b2, b3, b4, b5, b6⟩ := p2
    exact ⟨a1.trans b1, a2.trans b2, a3.trans b3, a4.trans b4, a5.trans b5, a6.trans b6⟩
  · intro i hi
    rw [← p3 i hi]
    apply o3
    rw [hst, hpw, hph]
    exact hi
  · intro y x hy hx
    have hx' : x < dst.width := by omega
    obtain ⟨u1, u2⟩ := o4 y x hy hx'
    rw [hal y x hy hx' hx] at u2
    refine ⟨u2, fun c hc => ?_⟩
    obtain ⟨v, v1, v2⟩ := u1 c hc
    rw [hpx _ _ _ _ (p4 y x c hy hx' hc), hal y x hy hx' hx] at v2
    refine ⟨v, v1, v2.1, fun h => ?_, fun h => round_trip_neon (pxD_le255' hb y x c) (by omega) rfl v2⟩
    rw [v2.2.1 h, h, roundDiv_opaque]

example : ∃ pre out, alphaNeonU8.premultiply Demo.row17 Demo.row17 = some pre ∧ alphaNeonU8.unpremultiply pre = some out ∧
    sample out.buffer 68 4 0 15 3 = some 128 := by
  obtain ⟨pre, out, h, h', _, _, h''⟩ := C154_round_trip_partial (src := Demo.row17) (dst := Demo.row17) (by decide) (by decide)
    rfl rfl (by decide) (by decide)
  exact ⟨pre, out, h, h', (h'' 0 15 (by decide) (by decide)).1.trans (by decide +kernel)⟩

/-- **C154 fails in the last `width % 16` columns**: premultiplying and unpremultiplying an image of one pixel of colour
100 and alpha 100 gives colour 254 and alpha 39. -/
theorem C154_violated : ∃ pre out, alphaNeonU8.premultiply Demo.a100 Demo.a100 = some pre ∧
    alphaNeonU8.unpremultiply pre = some out ∧
    sample out.buffer 4 4 0 0 0 = some 254 ∧ sample out.buffer 4 4 0 0 3 = some 39 := by
  have hpre : alphaNeonU8.premultiply Demo.a100 Demo.a100 = some Demo.a39 := by
    show premultiplyImageWith _ _ _ = _
    decide +kernel
  obtain ⟨out, o1, _, _, o4⟩ := unpremultiplyImageWith_spec unpremulRowNeon_ok (img := Demo.a39) (by decide) (by decide)
  exact ⟨_, out, hpre, o1, (o4 0 0 0 (by decide) (by decide) (by decide)).trans (by decide +kernel),
    (o4 0 0 3 (by decide) (by decide) (by decide)).trans (by decide +kernel)⟩

end PicScale
