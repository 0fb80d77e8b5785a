import Verif.Props.AlphaX86U16Resize
import Verif.Props.NeonAlpha
import Verif.Props.NeonAlphaU16
import Verif.Props.NeonU16

/-!
Property theorems about RGBA16 resizes with `premultiply_alpha = true` on AArch64: C190–C192.
-/

namespace PicScale

open Spec

namespace Spec

/-- `work` is the premultiplied copy of `src` at depth `d`; `fp16`: half precision. Every alpha is kept and, for samples
within the depth, every colour is the product with alpha over the maximum: exactly rounded at 16 bits and, without half
precision, at 10 and 12 bits; to within 51/100 at other depths; and at 10 and 12 bits in half precision to within 51/100
plus 1/430 (10 bits) or 1/220 (12 bits) of the value. -/
def PremultipliedCopyN16 (fp16 : Bool) (d : ℕ) (src work : Image ℕ) : Prop :=
  work.width = src.width ∧ work.height = src.height ∧
    ∀ y x, y < src.height → x < src.width →
      alphaAt work.buffer (work.strideOf 4) y x = alphaAt src.buffer (src.strideOf 4) y x ∧
      (1 ≤ d → FitsDepth d src → ∀ c, c < 3 →
        let p := pxD 0 src.buffer (src.strideOf 4) 4 y x c
        let a := alphaAt src.buffer (src.strideOf 4) y x
        let v := pxD 0 work.buffer (work.strideOf 4) 4 y x c
        if d = 16 ∨ fp16 = false ∧ (d = 10 ∨ d = 12) then v = roundDiv (p * a) (2 ^ d - 1)
        else if d = 10 ∨ d = 12 then PremultipliedTo (if d = 10 then 430 else 220) (2 ^ d - 1) p a v
        else Premultiplied16 (2 ^ d - 1) p a v)

end Spec

/-- One premultiplied colour. -/
theorem premulN16_spec {fp16 : Bool} {d : ℕ} (hd1 : 1 ≤ d) (hd : d ≤ 16) {p a : ℕ} (hp : p ≤ 2 ^ d - 1) (ha : a ≤ 2 ^ d - 1) :
    if d = 16 ∨ fp16 = false ∧ (d = 10 ∨ d = 12) then premulN16 fp16 d p a = roundDiv (p * a) (2 ^ d - 1)
    else if d = 10 ∨ d = 12 then PremultipliedTo (if d = 10 then 430 else 220) (2 ^ d - 1) p a (premulN16 fp16 d p a)
    else Premultiplied16 (2 ^ d - 1) p a (premulN16 fp16 d p a) := by
  by_cases h1 : d = 16 ∨ fp16 = false ∧ (d = 10 ∨ d = 12)
  · rw [if_pos h1]
    have hk : divExponent d = d := by
      unfold divExponent; rcases h1 with h | ⟨_, h | h⟩ <;> rw [h] <;> rfl
    have hn : ¬ (fp16 = true ∧ (d = 10 ∨ d = 12)) := by
      rintro ⟨hf, h⟩
      rcases h1 with h' | ⟨h', _⟩
      · omega
      · rw [hf] at h'; exact absurd h' (by decide)
    unfold premulN16
    rw [if_neg hn, if_pos (by tauto), hk, neonDivBy_eq (by tauto) hp ha]
  rw [if_neg h1]
  by_cases h2 : d = 10 ∨ d = 12
  · have hf : fp16 = true := by
      cases fp16
      · exact absurd (Or.inr ⟨rfl, h2⟩) h1
      · rfl
    rw [if_pos h2, hf]
    exact premulHalf_ok h2 hp ha
  · rw [if_neg h2]
    unfold premulN16
    rw [if_neg (by tauto), if_neg (by tauto)]
    exact premulAny_ok hd1 (by omega) hp ha

/-- The first step: the premultiplied copy. -/
theorem premultiplied_u16Neon {half fp16 fp16' : Bool} {W : ℕ} {r : ResamplingFunction}
    {store into : Image ℕ} (h : AcceptedCall16 W 4 r store into)
    (hch : store.channels = 4) (hb : ∀ v ∈ store.buffer, v ≤ 65535) :
    ∃ work, premultiplied W 4 (formatU16Neon half 4) (alphaNeonU16 fp16 fp16') true store into = some work ∧
      work.width = store.width ∧ work.height = store.height ∧
      (work = store ∨ PremultipliedCopyN16 fp16 into.bitDepth store work) ∧
      (store.width ≤ 32768 → (¬ AlphaVaries store → work = store) ∧
        (AlphaVaries store → PremultipliedCopyN16 fp16 into.bitDepth store work)) ∧
      AcceptedCall16 W 4 r work into := by
  obtain ⟨c1, c2, c3, c4, _⟩ := checkResize_ok.1 h.checked
  rw [hch] at c4
  have hfit := fits_of_overflow c4
  have hneed := C152_alpha_check_partial c2 c3.1 c3.2.1 hb
  unfold premultiplied
  by_cases hn : (alphaNeonU16 fp16 fp16').isNeeded store = true
  · rw [if_pos ⟨rfl, hn⟩, tempImage_some hfit]
    simp only [Option.bind_eq_bind, Option.bind_some]
    set dst : Image ℕ := ⟨List.replicate (store.width * store.height * 4) (formatU16Neon half 4).default, 4,
      store.width, store.height, store.width * 4, into.bitDepth⟩ with hdst
    have hdv : dst.validate 4 = .ok () := packed_validate (by rw [List.length_replicate])
    have hs : dst.strideOf 4 = store.width * 4 := by rw [hdst, packed_strideOf]
    obtain ⟨t, t1, t2, _, t4⟩ := premultiply_neon16 (fp16 := fp16) (fp16' := fp16') (src := store) (dst := dst)
      c2 hdv rfl rfl c3.1
    rw [t1]
    simp only [Option.bind_some]
    rw [hs] at t4
    obtain ⟨_, _, _, _, _, tl⟩ := t2
    have tl' : t.buffer.length = store.width * store.height * 4 := by rw [tl, hdst]; simp only [List.length_replicate]
    have hcopy : PremultipliedCopyN16 fp16 into.bitDepth store
        (Image.mk t.buffer 4 store.width store.height (store.width * 4) into.bitDepth) := by
      refine ⟨rfl, rfl, fun y x hy hx => ⟨?_, fun hd hf c hc => ?_⟩⟩
      · rw [packed_strideOf]
        unfold alphaAt pxD
        dsimp only
        rw [t4 y x 3 hy hx (by omega), Option.getD_some, pixelVal, if_neg (by omega)]
        rfl
      · rw [packed_strideOf]
        have e : pxD 0 t.buffer (store.width * 4) 4 y x c = premulN16 fp16 into.bitDepth
            (pxD 0 store.buffer (store.strideOf 4) 4 y x c) (alphaAt store.buffer (store.strideOf 4) y x) := by
          conv_lhs => unfold pxD
          rw [t4 y x c hy hx (by omega), Option.getD_some, pixelVal, if_pos hc]
          rfl
        dsimp only
        rw [e]
        exact premulN16_spec hd h.depth_le (pxD_le_depth hf y x c) (pxD_le_depth hf y x 3)
    refine ⟨_, rfl, rfl, rfl, Or.inr hcopy, fun hw => ⟨fun hv => absurd ((hneed hw).1 hn) hv, fun _ => hcopy⟩,
      ⟨h.channels, check_packed h.checked hch tl', h.filter, h.sizes, h.small, h.area, h.fits⟩⟩
  · rw [if_neg (by tauto)]
    exact ⟨store, rfl, rfl, rfl, Or.inl rfl, fun hw => ⟨fun _ => rfl, fun hv => absurd ((hneed hw).2 hv) hn⟩, h⟩

/-- The resized samples fit the depth. -/
theorem resize_u16Neon_le {W : ℕ} {L : Lib} {r : ResamplingFunction} {store into mid : Image ℕ}
    (h : AcceptedCall16 W 4 r store into) (half : Bool)
    (hm : genericResize W 4 (formatU16Neon half 4) L r store into = some (.ok (), mid))
    {y x c : ℕ} (hy : y < into.height) (hx : x < into.width) (hc : c < 4) :
    pxD 0 mid.buffer (into.strideOf 4) 4 y x c ≤ 2 ^ into.bitDepth - 1 := by
  obtain ⟨out, o1, o4⟩ := C179_u16_neon_range (L := L) h half
  rw [hm] at o1
  simp only [Option.some.injEq, Prod.mk.injEq, true_and] at o1
  subst o1
  obtain ⟨v, e, hv⟩ := o4 y x c hy hx hc
  unfold pxD
  rw [e]
  exact hv

/-! ### C190: the whole call -/

/-- **C190.** RGBA16 with `premultiply_alpha = true` on AArch64, at any depth, with and without half precision, and for any
samples: the call returns `Ok` and no access leaves a buffer. It is the plain resize of `work`, unpremultiplied:
`work` is the source or its premultiplied copy (the copy exactly when the alpha varies, in images of width up to
32768), and alpha and row padding are as the plain resize left them. -/
theorem C190_alpha_pipeline_neon16 {half fp16 fp16' : Bool} {W : ℕ} {L : Lib} {r : ResamplingFunction}
    {store into : Image ℕ} (h : AcceptedCall16 W 4 r store into)
    (hch : store.channels = 4) (hb : ∀ v ∈ store.buffer, v ≤ 65535) :
    ∃ work mid out,
      (work = store ∨ PremultipliedCopyN16 fp16 into.bitDepth store work) ∧
      (store.width ≤ 32768 → (¬ AlphaVaries store → work = store) ∧
        (AlphaVaries store → PremultipliedCopyN16 fp16 into.bitDepth store work)) ∧
      genericResize W 4 (formatU16Neon half 4) L r work into = some (.ok (), mid) ∧
      (alphaNeonU16 fp16 fp16').unpremultiply mid = some out ∧
      genericResizeWithAlpha W 4 (formatU16Neon half 4) (alphaNeonU16 fp16 fp16') L r store into true =
        some (.ok (), out) ∧
      SameShape out into ∧ PaddingKept 4 into out ∧
      ∀ y x, y < into.height → x < into.width →
        sample out.buffer (into.strideOf 4) 4 y x 3 = sample mid.buffer (into.strideOf 4) 4 y x 3 := by
  obtain ⟨work, w1, w2, w3, w4, w5, w6⟩ := premultiplied_u16Neon (half := half) (fp16 := fp16) (fp16' := fp16') h hch hb
  obtain ⟨mid, m1, m2, m3⟩ := C178_u16_neon_no_oob (L := L) w6 half
  obtain ⟨c1, c2, c3, _⟩ := checkResize_ok.1 h.checked
  have hst : mid.strideOf 4 = into.strideOf 4 := sameShape_strideOf m2
  have hmw : mid.width = into.width := m2.1
  have hmh : mid.height = into.height := m2.2.1
  have hv := sameShape_validate m2 c1
  obtain ⟨out, o1, o2, o3, o4⟩ := unpremultiply_neon16 (fp16 := fp16) (fp16' := fp16') (img := mid) hv
    (by rw [hmw]; exact c3.2.2.1)
  rw [hst, hmw, hmh] at o4
  refine ⟨work, mid, out, w4, w5, m1, o1, withAlpha_compose h.checked h.filter h.sizes w1 w2 w3 m1 o1, ?_, ?_, ?_⟩
  · obtain ⟨a1, a2, a3, a4, a5, a6⟩ := o2
    obtain ⟨b1, b2, b3, b4, b5, b6⟩ := m2
    exact ⟨a1.trans b1, a2.trans b2, a3.trans b3, a4.trans b4, a5.trans b5, a6.trans b6⟩
  · intro p hp
    rw [← m3 p hp]
    apply o3
    rw [hst, hmw, hmh]
    exact hp
  · intro y x hy hx
    have := sample_some (N := 4) 0 hv (y := y) (x := x) (c := 3) (by rw [hmh]; exact hy) (by rw [hmw]; exact hx) (by omega)
    rw [hst] at this
    rw [this, o4 y x 3 hy hx (by omega), pixelVal, if_neg (by omega)]

example : ∃ work mid out, PremultipliedCopyN16 true 10 (Demo.usrc 10) work ∧
    genericResize (2 ^ 64) 4 (formatU16Neon true 4) demoLib .bilinear work (Demo.udst 10) = some (.ok (), mid) ∧
    genericResizeWithAlpha (2 ^ 64) 4 (formatU16Neon true 4) (alphaNeonU16 true true)
      demoLib .bilinear (Demo.usrc 10) (Demo.udst 10) true = some (.ok (), out) := by
  obtain ⟨work, mid, out, _, h2, h3, _, h5, _⟩ := C190_alpha_pipeline_neon16 (half := true) (fp16 := true) (fp16' := true) (L := demoLib) Demo.ucall10 rfl (by decide +kernel)
  exact ⟨work, mid, out, (h2 (by decide)).2 Demo.usrc_varies, h3, h5⟩

/-! ### C191: the alpha channel -/

theorem vvNeon16_alpha (half : Bool) (d : ℕ) (fw : FilterWeights ℚ) {width y q : ℕ} {P P' : ℕ → ℕ → ℕ}
    (hq : q % 4 = 3) (hw : q < width * 4) (h : ∀ y q, q % 4 = 3 → q < width * 4 → P y q = P' y q) :
    vvNeon16 half 4 d fw width y q P = vvNeon16 half 4 d fw width y q P' := by
  have hcol : ∀ q, q % 4 = 3 → q < width * 4 → colOf fw P y q = colOf fw P' y q := by
    intro q h1 h2
    funext k
    exact h _ q h1 h2
  have h16 := readColumn_channel (B := 16) (n := width * 4) (p := q) (Or.inl rfl) (by omega) hw
  rw [hq] at h16
  unfold vvNeon16 columnVal
  dsimp only
  rw [hcol _ h16.1 h16.2]

theorem hvNeon16_alpha (half : Bool) (d : ℕ) (fw : FilterWeights ℚ) {inn out H y x : ℕ} {p p' : ℕ → ℕ}
    (hT : ValidTable fw inn out) (hS : PlainShape fw out) (hx : x < out)
    (h : ∀ q, q % 4 = 3 → q < inn * 4 → p q = p' q) :
    hvNeon16 4 d fw H y x 3 p = hvNeon16 4 d fw H y x 3 p' := by
  have F := passFun_u16Neon half (N := 4) (by omega) d
  rw [F.cong_h fw inn out H y x 3 p (fun q => if q < inn * 4 then p q else 0) hT hS hx (by omega)
      (fun q hq => by rw [if_pos hq]),
    F.cong_h fw inn out H y x 3 p' (fun q => if q < inn * 4 then p' q else 0) hT hS hx (by omega)
      (fun q hq => by rw [if_pos hq])]
  have hs : ∀ k, (if ((fw.bound x).start + k) * 4 + 3 < inn * 4 then p (((fw.bound x).start + k) * 4 + 3) else 0) =
      if ((fw.bound x).start + k) * 4 + 3 < inn * 4 then p' (((fw.bound x).start + k) * 4 + 3) else 0 := by
    intro k
    split_ifs with hq
    · exact h _ (by omega) hq
    · rfl
  unfold hvNeon16 qH win16
  simp only [hs]

/-- **C191.** The alpha channel of a resized RGBA16 image does not depend on `premultiply_alpha`, on AArch64, at any
depth: both calls succeed and store the same alpha in every pixel. -/
theorem C191_alpha_same_neon16 {half fp16 fp16' : Bool} {W : ℕ} {L : Lib} {r : ResamplingFunction}
    {store into : Image ℕ} (h : AcceptedCall16 W 4 r store into)
    (hch : store.channels = 4) (hb : ∀ v ∈ store.buffer, v ≤ 65535) :
    ∃ out out',
      genericResizeWithAlpha W 4 (formatU16Neon half 4) (alphaNeonU16 fp16 fp16') L r store into true =
        some (.ok (), out) ∧
      genericResizeWithAlpha W 4 (formatU16Neon half 4) (alphaNeonU16 fp16 fp16') L r store into false =
        some (.ok (), out') ∧
      ∀ y x, y < into.height → x < into.width →
        sample out.buffer (into.strideOf 4) 4 y x 3 = sample out'.buffer (into.strideOf 4) 4 y x 3 := by
  obtain ⟨work, w1, w2, w3, w4, _, w6⟩ := premultiplied_u16Neon (half := half) (fp16 := fp16) (fp16' := fp16') h hch hb
  obtain ⟨vf, hf, mid, ev, eh, Tv, Th, Sv, Sh, m1, m2, _, m4⟩ := u16Neon_raw (L := L) w6 half
  obtain ⟨vf', hf', out', ev', eh', _, _, _, _, p1, _, _, p4⟩ := u16Neon_raw (L := L) h half
  rw [w3] at ev m4
  rw [w2] at eh m4
  rw [ev] at ev'
  rw [eh] at eh'
  obtain rfl := Option.some.inj ev'
  obtain rfl := Option.some.inj eh'
  obtain ⟨c1, c2, c3, _⟩ := checkResize_ok.1 h.checked
  obtain ⟨_, c2', _⟩ := checkResize_ok.1 w6.checked
  have hst : mid.strideOf 4 = into.strideOf 4 := sameShape_strideOf m2
  have hmw : mid.width = into.width := m2.1
  have hmh : mid.height = into.height := m2.2.1
  have hv := sameShape_validate m2 c1
  obtain ⟨out, o1, _, _, o4⟩ := unpremultiply_neon16 (fp16 := fp16) (fp16' := fp16') (img := mid) hv
    (by rw [hmw]; exact c3.2.2.1)
  rw [hst, hmw, hmh] at o4
  refine ⟨out, out', withAlpha_compose h.checked h.filter h.sizes w1 w2 w3 m1 o1, withAlpha_false.trans p1, ?_⟩
  intro y x hy hx
  have hs3 := sample_some (N := 4) 0 hv (y := y) (x := x) (c := 3) (by rw [hmh]; exact hy) (by rw [hmw]; exact hx) (by omega)
  rw [hst] at hs3
  have e1 : sample out.buffer (into.strideOf 4) 4 y x 3 = sample mid.buffer (into.strideOf 4) 4 y x 3 := by
    rw [hs3, o4 y x 3 hy hx (by omega), pixelVal, if_neg (by omega)]
  rw [e1, m4 y x 3 hy hx (by omega), p4 y x 3 hy hx (by omega)]
  refine congrArg some ?_
  -- the two pictures agree on alpha
  have hagree : ∀ y q, q % 4 = 3 → q < store.width * 4 →
      rowPos 0 work.buffer (work.strideOf 4) y q = rowPos 0 store.buffer (store.strideOf 4) y q := by
    intro y q hq hlt
    have eq : q = q / 4 * 4 + 3 := by omega
    rw [eq, rowPos_pxD, rowPos_pxD]
    by_cases hy : y < store.height
    · rcases w4 with w4 | w4
      · rw [w4]
      · exact (w4.2.2 y (q / 4) hy (by omega)).1
    · obtain ⟨l1, _⟩ := validate_facts c2
      obtain ⟨l2, _⟩ := validate_facts c2'
      have z : ∀ (img : Image ℕ), img.buffer.length = img.strideOf 4 * img.height → img.height ≤ y →
          pxD 0 img.buffer (img.strideOf 4) 4 y (q / 4) 3 = 0 := by
        intro img hl hle
        unfold pxD sample
        rw [List.getElem?_eq_none, Option.getD_none]
        rw [hl]
        have : img.height * img.strideOf 4 ≤ y * img.strideOf 4 := Nat.mul_le_mul_right _ hle
        have hcomm : img.strideOf 4 * img.height = img.height * img.strideOf 4 := Nat.mul_comm _ _
        omega
      rw [z _ l2 (by omega), z _ l1 (by omega)]
  have hx4 : x * 4 + 3 < into.width * 4 := by omega
  rw [w3] at Tv
  rw [w2] at Th
  unfold sepFun
  dsimp only
  split_ifs with q1 q2 q2
  · exact hagree _ _ (by omega) (by omega)
  · exact vvNeon16_alpha _ _ _ (by omega) (by omega) hagree
  · exact hvNeon16_alpha half _ _ Th Sh hx fun q a b => hagree _ _ a b
  · exact hvNeon16_alpha half _ _ Th Sh hx fun q a b => vvNeon16_alpha _ _ _ a b hagree

example : ∃ out out',
    genericResizeWithAlpha (2 ^ 64) 4 (formatU16Neon false 4) (alphaNeonU16 true false)
      demoLib .bilinear (Demo.usrc 10) (Demo.udst 10) true = some (.ok (), out) ∧
    genericResizeWithAlpha (2 ^ 64) 4 (formatU16Neon false 4) (alphaNeonU16 true false)
      demoLib .bilinear (Demo.usrc 10) (Demo.udst 10) false = some (.ok (), out') ∧
    sample out.buffer 9 4 2 1 3 = sample out'.buffer 9 4 2 1 3 := by
  obtain ⟨out, out', h1, h2, h3⟩ := C191_alpha_same_neon16 (half := false) (fp16 := true) (fp16' := false) (L := demoLib) Demo.ucall10 rfl (by decide +kernel)
  exact ⟨out, out', h1, h2, h3 2 1 (by decide) (by decide)⟩

/-! ### C192: the colours -/

/-- One unpremultiplied colour. -/
theorem unpremulN16_spec {fp16' : Bool} {d : ℕ} (hd : d ≤ 16) {p a : ℕ} (hp : p ≤ 2 ^ d - 1) (ha : a ≤ 2 ^ d - 1)
    (hpa : a = 0 ∨ p ≤ a) :
    UnpremultipliedTo (if fp16' = true ∧ d = 10 then 500 else if fp16' = true ∧ d = 12 then 300 else 3000000)
      (2 ^ d - 1) p a (unpremulN16 fp16' d p a) := by
  have hM := depth_max_le hd
  by_cases h0 : a = 0
  · unfold unpremulN16
    rw [if_pos h0]
    exact ⟨fun _ => rfl, fun h => absurd h0 h⟩
  have hpa := hpa.resolve_left h0
  by_cases hf : fp16' = true ∧ (d = 10 ∨ d = 12)
  · obtain ⟨hf, h12⟩ := hf
    have k := unpremulHalf_ok h12 hpa ha
    rw [hf]
    rcases h12 with rfl | rfl <;> simpa using k
  · rw [if_neg (by tauto), if_neg (by tauto)]
    unfold unpremulN16
    rw [if_neg h0, if_neg (by tauto)]
    exact ⟨fun h => absurd h h0, fun _ => unpremul32_ok hd hpa (by omega) (by omega)⟩

/-- **C192 (partial).** With `premultiply_alpha = true`, every colour of the result should be the resized premultiplied
colour divided by the resized alpha, within the depth. Proved: to within 51/100 plus 1/3000000 of the value (in half
precision 1/500 at 10 bits, 1/300 at 12 bits) for every pixel whose resized colour does not exceed its resized alpha; a
transparent pixel keeps the resized colour. Missing: colours above alpha, which leave the depth, and images of constant
alpha, which are divided without having been multiplied: `C192_violated`. -/
theorem C192_colours_neon16_partial {half fp16 fp16' : Bool} {W : ℕ} {L : Lib} {r : ResamplingFunction}
    {store into : Image ℕ} (h : AcceptedCall16 W 4 r store into) (hch : store.channels = 4) (hb : ∀ v ∈ store.buffer, v ≤ 65535) :
    ∃ work mid out,
      (store.width ≤ 32768 → AlphaVaries store → PremultipliedCopyN16 fp16 into.bitDepth store work) ∧
      genericResize W 4 (formatU16Neon half 4) L r work into = some (.ok (), mid) ∧
      genericResizeWithAlpha W 4 (formatU16Neon half 4) (alphaNeonU16 fp16 fp16') L r store into true =
        some (.ok (), out) ∧
      ∀ y x, y < into.height → x < into.width → ∃ a, sample mid.buffer (into.strideOf 4) 4 y x 3 = some a ∧
        ∀ c, c < 3 → ∃ p v, sample mid.buffer (into.strideOf 4) 4 y x c = some p ∧
          sample out.buffer (into.strideOf 4) 4 y x c = some v ∧
          (a = 0 ∨ p ≤ a → UnpremultipliedTo
            (if fp16' = true ∧ into.bitDepth = 10 then 500 else if fp16' = true ∧ into.bitDepth = 12 then 300 else 3000000)
            (2 ^ into.bitDepth - 1) p a v) := by
  obtain ⟨work, w1, w2, w3, _, w5, w6⟩ := premultiplied_u16Neon (half := half) (fp16 := fp16) (fp16' := fp16') h hch hb
  obtain ⟨mid, m1, m2, m3⟩ := C178_u16_neon_no_oob (L := L) w6 half
  obtain ⟨c1, c2, c3, _, _, c6⟩ := checkResize_ok.1 h.checked
  have hst : mid.strideOf 4 = into.strideOf 4 := sameShape_strideOf m2
  have hmw : mid.width = into.width := m2.1
  have hmh : mid.height = into.height := m2.2.1
  have hmd : mid.bitDepth = into.bitDepth := m2.2.2.2.2.1
  have hv := sameShape_validate m2 c1
  obtain ⟨out, o1, o2, o3, o4⟩ := unpremultiply_neon16 (fp16 := fp16) (fp16' := fp16') (img := mid) hv
    (by rw [hmw]; exact c3.2.2.1)
  rw [hst, hmw, hmh, hmd] at o4
  refine ⟨work, mid, out, fun hw => (w5 hw).2, m1, withAlpha_compose h.checked h.filter h.sizes w1 w2 w3 m1 o1, ?_⟩
  intro y x hy hx
  have hsamp : ∀ c, c < 4 → sample mid.buffer (into.strideOf 4) 4 y x c = some (pxD 0 mid.buffer (into.strideOf 4) 4 y x c) := by
    intro c hc
    have := sample_some (N := 4) 0 hv (by rw [hmh]; exact hy) (by rw [hmw]; exact hx) hc
    rw [hst] at this
    exact this
  refine ⟨_, hsamp 3 (by omega), fun c hc => ⟨_, _, hsamp c (by omega), o4 y x c hy hx (by omega), fun hpa => ?_⟩⟩
  rw [pixelVal, if_pos hc]
  exact unpremulN16_spec h.depth_le (resize_u16Neon_le w6 half m1 hy hx (by omega))
    (resize_u16Neon_le w6 half m1 hy hx (by omega)) hpa

example : ∃ out, genericResizeWithAlpha (2 ^ 64) 4 (formatU16Neon true 4) (alphaNeonU16 true false)
    demoLib .bilinear (Demo.usrc 10) (Demo.udst 10) true = some (.ok (), out) := by
  obtain ⟨_, _, out, _, _, h, _⟩ := C192_colours_neon16_partial (half := true) (fp16 := true) (fp16' := false)
    (L := demoLib) Demo.ucall10 rfl (by decide +kernel)
  exact ⟨out, h⟩

/-- **C192 fails** in two ways, on a 10-bit image of constant alpha 100: colour 1000 leaves the depth (it comes out as
10230), and colour 50, which the resize keeps, comes out as 511. -/
theorem C192_violated :
    genericResizeWithAlpha (2 ^ 64) 4 (formatU16Neon false 4) (alphaNeonU16 false false)
      demoLib .bilinear ⟨[1000, 50, 0, 100, 1000, 50, 0, 100], 4, 2, 1, 8, 10⟩ ⟨[0, 0, 0, 0], 4, 1, 1, 4, 10⟩ true =
      some (.ok (), ⟨[10230, 511, 0, 100], 4, 1, 1, 4, 10⟩) ∧
    genericResizeWithAlpha (2 ^ 64) 4 (formatU16Neon false 4) (alphaNeonU16 false false)
      demoLib .bilinear ⟨[1000, 50, 0, 100, 1000, 50, 0, 100], 4, 2, 1, 8, 10⟩ ⟨[0, 0, 0, 0], 4, 1, 1, 4, 10⟩ false =
      some (.ok (), ⟨[1000, 50, 0, 100], 4, 1, 1, 4, 10⟩) := by
  decide +kernel

end PicScale
