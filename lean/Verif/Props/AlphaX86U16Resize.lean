import Verif.Props.AlphaX86U16
import Verif.Props.AlphaF32Resize
import Verif.Props.X86U16

/-!
Property theorems about RGBA16 resizes with `premultiply_alpha = true` on x86 CPUs with vector instructions:
C135–C137.
-/

namespace PicScale

open Spec

namespace Spec

/-- `work` is the premultiplied copy of `src` at depth `d`: every alpha is kept and, at 10 and 12 bits and for
samples within the depth, every colour is the product with alpha over the maximum, rounded to nearest. -/
def PremultipliedCopy16 (d : ℕ) (src work : Image ℕ) : Prop :=
  work.width = src.width ∧ work.height = src.height ∧
    ∀ y x, y < src.height → x < src.width →
      alphaAt work.buffer (work.strideOf 4) y x = alphaAt src.buffer (src.strideOf 4) y x ∧
      (d = 10 ∨ d = 12 → FitsDepth d src → ∀ c, c < 3 → pxD 0 work.buffer (work.strideOf 4) 4 y x c =
        roundDiv (pxD 0 src.buffer (src.strideOf 4) 4 y x c * alphaAt src.buffer (src.strideOf 4) y x) (2 ^ d - 1))

end Spec

theorem u16_le65535 (v : ℤ) : u16 v ≤ 65535 := by unfold u16; omega

/-- The first step: the premultiplied copy. -/
theorem premultiplied_u16X86 {cpu : Cpu} {fma fused : Bool} {rcp : ℚ → ℚ} {W : ℕ} {r : ResamplingFunction}
    {store into : Image ℕ} (hcpu : cpu.avx2 = true ∨ cpu.sse41 = true) (h : AcceptedCall16 W 4 r store into)
    (hch : store.channels = 4) (hb : ∀ v ∈ store.buffer, v ≤ 65535) :
    ∃ work, premultiplied W 4 (formatU16X86 cpu fma fused 4) (alphaX86U16 cpu fma rcp) true store into = some work ∧
      work.width = store.width ∧ work.height = store.height ∧
      (work = store ∨ PremultipliedCopy16 into.bitDepth store work) ∧
      (store.width ≤ 32768 → (¬ AlphaVaries store → work = store) ∧
        (AlphaVaries store → PremultipliedCopy16 into.bitDepth store work)) ∧
      AcceptedCall16 W 4 r work into := by
  obtain ⟨c1, c2, c3, c4, _⟩ := checkResize_ok.1 h.checked
  rw [hch] at c4
  have hfit := fits_of_overflow c4
  have hneed := (C64_alpha_check_partial (cpu := cpu) (rcp := rcp) c2 c3.1 c3.2.1).2 hb
  unfold premultiplied
  by_cases hn : (alphaX86U16 cpu fma rcp).isNeeded store = true
  · rw [if_pos ⟨rfl, hn⟩, tempImage_some hfit]
    simp only [Option.bind_eq_bind, Option.bind_some]
    set dst : Image ℕ := ⟨List.replicate (store.width * store.height * 4) (formatU16X86 cpu fma fused 4).default, 4,
      store.width, store.height, store.width * 4, into.bitDepth⟩ with hdst
    have hdv : dst.validate 4 = .ok () := packed_validate (by rw [List.length_replicate])
    have hs : dst.strideOf 4 = store.width * 4 := by rw [hdst, packed_strideOf]
    obtain ⟨t, t1, t2, _, t4⟩ := premultiply16_spec (cpu := cpu) (fma := fma) (rcp := rcp) (src := store) (dst := dst)
      hcpu c2 hdv rfl rfl c3.1
    rw [t1]
    simp only [Option.bind_some]
    rw [hs] at t4
    obtain ⟨_, _, _, _, _, tl⟩ := t2
    have tl' : t.buffer.length = store.width * store.height * 4 := by rw [tl, hdst]; simp only [List.length_replicate]
    have hsrc : ∀ y x c, pxD 0 store.buffer (store.strideOf 4) 4 y x c ≤ 65535 := fun y x c =>
      pxD_le_depth (d := 16) (img := store) (by unfold FitsDepth; simpa using hb) y x c
    have hcopy : PremultipliedCopy16 into.bitDepth store
        (Image.mk t.buffer 4 store.width store.height (store.width * 4) into.bitDepth) := by
      refine ⟨rfl, rfl, fun y x hy hx => ⟨?_, fun hd hf c hc => ?_⟩⟩
      · rw [packed_strideOf]
        unfold alphaAt pxD
        dsimp only
        rw [t4 y x 3 hy hx (by omega), Option.getD_some, pixelVal, if_neg (by omega)]
        exact Nat.mod_eq_of_lt (by have := hsrc y x 3; omega)
      · rw [packed_strideOf]
        obtain ⟨t', e1, _, _, e4⟩ := C67_premultiply (fma := fma) (rcp := rcp) (src := store) (dst := dst) hcpu hd c2 hdv rfl rfl
          c3.1 hf
        rw [t1] at e1
        obtain rfl := Option.some.inj e1
        rw [hs] at e4
        have := (e4 y x hy hx).1 c hc
        unfold pxD
        dsimp only
        rw [this, Option.getD_some]
        rfl
    refine ⟨_, rfl, rfl, rfl, Or.inr hcopy, fun hw => ⟨fun hv => absurd ((hneed hw).1 hn) hv, fun _ => hcopy⟩,
      ⟨h.channels, check_packed h.checked hch tl', h.filter, h.sizes, h.small, h.area, h.fits⟩⟩
  · rw [if_neg (by tauto)]
    exact ⟨store, rfl, rfl, rfl, Or.inl rfl, fun hw => ⟨fun _ => rfl, fun hv => absurd ((hneed hw).2 hv) hn⟩, h⟩

theorem lb16Val_le (d : ℕ) (a : ℤ) : lb16Val d a ≤ 65535 := u16_le65535 _

theorem satNarrow_le (hi : ℕ) (v : ℤ) : saturateNarrow hi v ≤ hi := by
  unfold saturateNarrow
  omega

/-- The resized samples are 16-bit samples. -/
theorem resize_u16X86_le {W : ℕ} {L : Lib} {r : ResamplingFunction} {store into mid : Image ℕ}
    (h : AcceptedCall16 W 4 r store into) (cpu : Cpu) (fma fused : Bool)
    (hm : genericResize W 4 (formatU16X86 cpu fma fused 4) L r store into = some (.ok (), mid))
    {y x c : ℕ} (hy : y < into.height) (hx : x < into.width) (hc : c < 4) :
    pxD 0 mid.buffer (into.strideOf 4) 4 y x c ≤ 65535 := by
  obtain ⟨vf, hf, out, _, _, _, _, _, _, o1, _, _, o4⟩ := u16X86_raw (L := L) h cpu fma fused
  have hd : into.bitDepth ≤ 16 := ((checkResize_ok.1 h.checked).2.2.2.2.2 rfl).2
  have hM := depth_max_le hd
  rw [hm] at o1
  simp only [Option.some.injEq, Prod.mk.injEq, true_and] at o1
  subst o1
  unfold pxD
  rw [o4 y x c hy hx hc, Option.getD_some]
  unfold sepFun
  dsimp only
  have hV : ∀ q P, vvX86 cpu fma fused 4 into.bitDepth vf store.width y q P ≤ 65535 := by
    intro q P
    by_cases h12 : 12 < into.bitDepth
    · exact (vvX86_deep_le _ _ _ h12 hd _ _ _ _ _).trans hM
    · unfold vvX86 columnVal
      dsimp only
      rw [if_neg h12]
      split_ifs
      all_goals first
        | exact lb16Val_le _ _
        | exact (satNarrow_le _ _).trans hM
  split_ifs with h1 h2
  · have := h.sizes; tauto
  · exact hV _ _
  all_goals
    by_cases h12 : 12 < into.bitDepth
    · exact (hvX86_deep_le _ _ _ h12 hd _ _ _ _ _ _).trans hM
    · unfold hvX86
      dsimp only
      rw [if_neg h12]
      split_ifs
      all_goals first
        | exact lb16Val_le _ _
        | exact (satNarrow_le _ _).trans hM

/-! ### C135: the whole call -/

/-- **C135.** RGBA16 with `premultiply_alpha = true` on an x86 CPU with SSE4.1 or AVX2, at any depth and for any
samples: the call returns `Ok` and no access leaves a buffer. It is the plain resize of `work`, unpremultiplied:
`work` is the source or its premultiplied copy (the copy exactly when the alpha varies, in images of width up to
32768), and alpha and row padding are as the plain resize left them. -/
theorem C135_alpha_pipeline_u16 {cpu : Cpu} {fma fused : Bool} {rcp : ℚ → ℚ} {W : ℕ} {L : Lib} {r : ResamplingFunction}
    {store into : Image ℕ} (hcpu : cpu.avx2 = true ∨ cpu.sse41 = true) (h : AcceptedCall16 W 4 r store into)
    (hch : store.channels = 4) (hb : ∀ v ∈ store.buffer, v ≤ 65535) :
    ∃ work mid out,
      (work = store ∨ PremultipliedCopy16 into.bitDepth store work) ∧
      (store.width ≤ 32768 → (¬ AlphaVaries store → work = store) ∧
        (AlphaVaries store → PremultipliedCopy16 into.bitDepth store work)) ∧
      genericResize W 4 (formatU16X86 cpu fma fused 4) L r work into = some (.ok (), mid) ∧
      (alphaX86U16 cpu fma rcp).unpremultiply mid = some out ∧
      genericResizeWithAlpha W 4 (formatU16X86 cpu fma fused 4) (alphaX86U16 cpu fma rcp) L r store into true =
        some (.ok (), out) ∧
      SameShape out into ∧ PaddingKept 4 into out ∧
      ∀ y x, y < into.height → x < into.width →
        sample out.buffer (into.strideOf 4) 4 y x 3 = sample mid.buffer (into.strideOf 4) 4 y x 3 := by
  obtain ⟨work, w1, w2, w3, w4, w5, w6⟩ := premultiplied_u16X86 (fma := fma) (fused := fused) (rcp := rcp) hcpu h hch hb
  obtain ⟨mid, m1, m2, m3⟩ := C76_u16_no_oob (L := L) w6 cpu fma fused
  obtain ⟨c1, c2, c3, _⟩ := checkResize_ok.1 h.checked
  have hst : mid.strideOf 4 = into.strideOf 4 := sameShape_strideOf m2
  have hmw : mid.width = into.width := m2.1
  have hmh : mid.height = into.height := m2.2.1
  have hv := sameShape_validate m2 c1
  obtain ⟨out, o1, o2, o3, o4⟩ := unpremultiply16_spec (cpu := cpu) (fma := fma) (rcp := rcp) (img := mid) hcpu hv
    (by rw [hmw]; exact c3.2.2.1)
  rw [hst, hmw, hmh] at o4
  refine ⟨work, mid, out, w4, w5, m1, o1, withAlpha_compose h.checked h.filter h.sizes w1 w2 w3 m1 o1, ?_, ?_, ?_⟩
  · obtain ⟨a1, a2, a3, a4, a5, a6⟩ := o2
    obtain ⟨b1, b2, b3, b4, b5, b6⟩ := m2
    exact ⟨a1.trans b1, a2.trans b2, a3.trans b3, a4.trans b4, a5.trans b5, a6.trans b6⟩
  · intro p hp
    rw [← m3 p hp]
    apply o3
    rw [hst, hmw, hmh]
    exact hp
  · intro y x hy hx
    have := sample_some (N := 4) 0 hv (y := y) (x := x) (c := 3) (by rw [hmh]; exact hy) (by rw [hmw]; exact hx) (by omega)
    rw [hst] at this
    rw [this, o4 y x 3 hy hx (by omega), pixelVal, if_neg (by omega)]
    refine congrArg some ?_
    exact Nat.mod_eq_of_lt (by have := resize_u16X86_le w6 cpu fma fused m1 hy hx (c := 3) (by omega); omega)

theorem Demo.usrc_varies : AlphaVaries (Demo.usrc 10) := by
  refine ⟨0, 0, 0, 1, by decide, by decide, by decide, by decide, by decide +kernel⟩

example : ∃ work mid out, PremultipliedCopy16 10 (Demo.usrc 10) work ∧
    genericResize (2 ^ 64) 4 (formatU16X86 ⟨true, true⟩ true true 4) demoLib .bilinear work (Demo.udst 10) = some (.ok (), mid) ∧
    genericResizeWithAlpha (2 ^ 64) 4 (formatU16X86 ⟨true, true⟩ true true 4) (alphaX86U16 ⟨true, true⟩ true fun n => 1 / n)
      demoLib .bilinear (Demo.usrc 10) (Demo.udst 10) true = some (.ok (), out) := by
  obtain ⟨work, mid, out, _, h2, h3, _, h5, _⟩ := C135_alpha_pipeline_u16 (cpu := ⟨true, true⟩) (fma := true) (fused := true)
    (rcp := fun n => 1 / n) (L := demoLib) (Or.inl rfl) Demo.ucall10 rfl (by decide +kernel)
  exact ⟨work, mid, out, (h2 (by decide)).2 Demo.usrc_varies, h3, h5⟩

/-! ### C136: the alpha channel -/

/-- In rows of whole RGBA pixels the column a handler reads belongs to the same channel. -/
theorem readColumn_channel {B n p : ℕ} (hB : B = 16 ∨ B = 32) (hn : n % 4 = 0) (hp : p < n) :
    readColumn B n p % 4 = p % 4 ∧ readColumn B n p < n := by
  unfold readColumn tailStart
  rcases hB with rfl | rfl
  all_goals
    split_ifs
    all_goals omega

theorem vvX86_alpha (cpu : Cpu) (fma fused : Bool) (d : ℕ) (fw : FilterWeights ℚ) {width y q : ℕ} {P P' : ℕ → ℕ → ℕ}
    (hq : q % 4 = 3) (hw : q < width * 4) (h : ∀ y q, q % 4 = 3 → q < width * 4 → P y q = P' y q) :
    vvX86 cpu fma fused 4 d fw width y q P = vvX86 cpu fma fused 4 d fw width y q P' := by
  have hcol : ∀ q, q % 4 = 3 → q < width * 4 → colOf fw P y q = colOf fw P' y q := by
    intro q h1 h2
    funext k
    exact h _ q h1 h2
  have h16 := readColumn_channel (B := 16) (n := width * 4) (p := q) (Or.inl rfl) (by omega) hw
  have h32 := readColumn_channel (B := 32) (n := width * 4) (p := q) (Or.inr rfl) (by omega) hw
  rw [hq] at h16 h32
  unfold vvX86 columnVal
  dsimp only
  rw [hcol q hq hw, hcol _ h16.1 h16.2, hcol _ h32.1 h32.2]

theorem hvX86_alpha (cpu : Cpu) (fma fused : Bool) (d : ℕ) (fw : FilterWeights ℚ) {inn out H y x : ℕ} {p p' : ℕ → ℕ}
    (hT : ValidTable fw inn out) (hS : PlainShape fw out) (hx : x < out)
    (h : ∀ q, q % 4 = 3 → q < inn * 4 → p q = p' q) :
    hvX86 cpu fma fused 4 d fw H y x 3 p = hvX86 cpu fma fused 4 d fw H y x 3 p' := by
  have F := passFun_u16X86 cpu fma fused (N := 4) (by omega) d
  rw [F.cong_h fw inn out H y x 3 p (fun q => if q < inn * 4 then p q else 0) hT hS hx (by omega)
      (fun q hq => by rw [if_pos hq]),
    F.cong_h fw inn out H y x 3 p' (fun q => if q < inn * 4 then p' q else 0) hT hS hx (by omega)
      (fun q hq => by rw [if_pos hq])]
  have hs : ∀ k, (if ((fw.bound x).start + k) * 4 + 3 < inn * 4 then p (((fw.bound x).start + k) * 4 + 3) else 0) =
      if ((fw.bound x).start + k) * 4 + 3 < inn * 4 then p' (((fw.bound x).start + k) * 4 + 3) else 0 := by
    intro k
    split_ifs with hq
    · exact h _ (by omega) hq
    · rfl
  unfold hvX86 fpH lbH
  simp only [hs]

/-- **C136.** The alpha channel of a resized RGBA16 image does not depend on `premultiply_alpha`, on any x86 CPU with
SSE4.1 or AVX2, at any depth: both calls succeed and store the same alpha in every pixel. -/
theorem C136_alpha_same_u16 {cpu : Cpu} {fma fused : Bool} {rcp : ℚ → ℚ} {W : ℕ} {L : Lib} {r : ResamplingFunction}
    {store into : Image ℕ} (hcpu : cpu.avx2 = true ∨ cpu.sse41 = true) (h : AcceptedCall16 W 4 r store into)
    (hch : store.channels = 4) (hb : ∀ v ∈ store.buffer, v ≤ 65535) :
    ∃ out out',
      genericResizeWithAlpha W 4 (formatU16X86 cpu fma fused 4) (alphaX86U16 cpu fma rcp) L r store into true =
        some (.ok (), out) ∧
      genericResizeWithAlpha W 4 (formatU16X86 cpu fma fused 4) (alphaX86U16 cpu fma rcp) L r store into false =
        some (.ok (), out') ∧
      ∀ y x, y < into.height → x < into.width →
        sample out.buffer (into.strideOf 4) 4 y x 3 = sample out'.buffer (into.strideOf 4) 4 y x 3 := by
  obtain ⟨work, w1, w2, w3, w4, _, w6⟩ := premultiplied_u16X86 (fma := fma) (fused := fused) (rcp := rcp) hcpu h hch hb
  obtain ⟨vf, hf, mid, ev, eh, Tv, Th, Sv, Sh, m1, m2, _, m4⟩ := u16X86_raw (L := L) w6 cpu fma fused
  obtain ⟨vf', hf', out', ev', eh', _, _, _, _, p1, _, _, p4⟩ := u16X86_raw (L := L) h cpu fma fused
  rw [w3] at ev m4
  rw [w2] at eh m4
  rw [ev] at ev'
  rw [eh] at eh'
  obtain rfl := Option.some.inj ev'
  obtain rfl := Option.some.inj eh'
  obtain ⟨c1, c2, c3, _⟩ := checkResize_ok.1 h.checked
  obtain ⟨_, c2', _⟩ := checkResize_ok.1 w6.checked
  have hst : mid.strideOf 4 = into.strideOf 4 := sameShape_strideOf m2
  have hmw : mid.width = into.width := m2.1
  have hmh : mid.height = into.height := m2.2.1
  have hv := sameShape_validate m2 c1
  obtain ⟨out, o1, _, _, o4⟩ := unpremultiply16_spec (cpu := cpu) (fma := fma) (rcp := rcp) (img := mid) hcpu hv
    (by rw [hmw]; exact c3.2.2.1)
  rw [hst, hmw, hmh] at o4
  refine ⟨out, out', withAlpha_compose h.checked h.filter h.sizes w1 w2 w3 m1 o1, withAlpha_false.trans p1, ?_⟩
  intro y x hy hx
  have hs3 := sample_some (N := 4) 0 hv (y := y) (x := x) (c := 3) (by rw [hmh]; exact hy) (by rw [hmw]; exact hx) (by omega)
  rw [hst] at hs3
  have e1 : sample out.buffer (into.strideOf 4) 4 y x 3 = sample mid.buffer (into.strideOf 4) 4 y x 3 := by
    rw [hs3, o4 y x 3 hy hx (by omega), pixelVal, if_neg (by omega)]
    refine congrArg some ?_
    exact Nat.mod_eq_of_lt (by have := resize_u16X86_le w6 cpu fma fused m1 hy hx (c := 3) (by omega); omega)
  rw [e1, m4 y x 3 hy hx (by omega), p4 y x 3 hy hx (by omega)]
  refine congrArg some ?_
  -- the two pictures agree on alpha
  have hagree : ∀ y q, q % 4 = 3 → q < store.width * 4 →
      rowPos 0 work.buffer (work.strideOf 4) y q = rowPos 0 store.buffer (store.strideOf 4) y q := by
    intro y q hq hlt
    have eq : q = q / 4 * 4 + 3 := by omega
    rw [eq, rowPos_pxD, rowPos_pxD]
    by_cases hy : y < store.height
    · rcases w4 with w4 | w4
      · rw [w4]
      · exact (w4.2.2 y (q / 4) hy (by omega)).1
    · obtain ⟨l1, _⟩ := validate_facts c2
      obtain ⟨l2, _⟩ := validate_facts c2'
      have z : ∀ (img : Image ℕ), img.buffer.length = img.strideOf 4 * img.height → img.height ≤ y →
          pxD 0 img.buffer (img.strideOf 4) 4 y (q / 4) 3 = 0 := by
        intro img hl hle
        unfold pxD sample
        rw [List.getElem?_eq_none, Option.getD_none]
        rw [hl]
        have : img.height * img.strideOf 4 ≤ y * img.strideOf 4 := Nat.mul_le_mul_right _ hle
        have hcomm : img.strideOf 4 * img.height = img.height * img.strideOf 4 := Nat.mul_comm _ _
        omega
      rw [z _ l2 (by omega), z _ l1 (by omega)]
  have hx4 : x * 4 + 3 < into.width * 4 := by omega
  rw [w3] at Tv
  rw [w2] at Th
  unfold sepFun
  dsimp only
  split_ifs with q1 q2 q2
  · exact hagree _ _ (by omega) (by omega)
  · exact vvX86_alpha _ _ _ _ _ (by omega) (by omega) hagree
  · exact hvX86_alpha _ _ _ _ _ Th Sh hx fun q a b => hagree _ _ a b
  · exact hvX86_alpha _ _ _ _ _ Th Sh hx fun q a b => vvX86_alpha _ _ _ _ _ a b hagree

example : ∃ out out',
    genericResizeWithAlpha (2 ^ 64) 4 (formatU16X86 ⟨true, false⟩ true true 4) (alphaX86U16 ⟨true, false⟩ true fun n => 1 / n)
      demoLib .bilinear (Demo.usrc 10) (Demo.udst 10) true = some (.ok (), out) ∧
    genericResizeWithAlpha (2 ^ 64) 4 (formatU16X86 ⟨true, false⟩ true true 4) (alphaX86U16 ⟨true, false⟩ true fun n => 1 / n)
      demoLib .bilinear (Demo.usrc 10) (Demo.udst 10) false = some (.ok (), out') ∧
    sample out.buffer 9 4 2 1 3 = sample out'.buffer 9 4 2 1 3 := by
  obtain ⟨out, out', h1, h2, h3⟩ := C136_alpha_same_u16 (cpu := ⟨true, false⟩) (fma := true) (fused := true)
    (rcp := fun n => 1 / n) (L := demoLib) (Or.inr rfl) Demo.ucall10 rfl (by decide +kernel)
  exact ⟨out, out', h1, h2, h3 2 1 (by decide) (by decide)⟩

/-! ### C137: the colours -/

/-- **C137 (partial).** With `premultiply_alpha = true`, every colour of the result should be the resized premultiplied
colour divided by the resized alpha, within the depth. Proved: to within 101/100 plus 1/2048 of the value for every
pixel whose resized colour does not exceed its resized alpha (not with SSE4.1 only at 16 bits: `C71_violated`); a
transparent pixel keeps the resized colour. Missing: colours above alpha, which leave the depth, and images of constant
alpha, which are divided without having been multiplied: `C137_violated`. -/
theorem C137_colours_u16_partial {cpu : Cpu} {fma fused : Bool} {rcp : ℚ → ℚ} {W : ℕ} {L : Lib} {r : ResamplingFunction}
    {store into : Image ℕ} (hcpu : cpu.avx2 = true ∨ cpu.sse41 = true ∧ into.bitDepth ≤ 15) (hr : ReciprocalInstruction rcp)
    (h : AcceptedCall16 W 4 r store into) (hch : store.channels = 4) (hb : ∀ v ∈ store.buffer, v ≤ 65535) :
    ∃ work mid out,
      (store.width ≤ 32768 → AlphaVaries store → PremultipliedCopy16 into.bitDepth store work) ∧
      genericResize W 4 (formatU16X86 cpu fma fused 4) L r work into = some (.ok (), mid) ∧
      genericResizeWithAlpha W 4 (formatU16X86 cpu fma fused 4) (alphaX86U16 cpu fma rcp) L r store into true =
        some (.ok (), out) ∧
      ∀ y x, y < into.height → x < into.width → ∃ a, sample mid.buffer (into.strideOf 4) 4 y x 3 = some a ∧
        ∀ c, c < 3 → ∃ p v, sample mid.buffer (into.strideOf 4) 4 y x c = some p ∧
          sample out.buffer (into.strideOf 4) 4 y x c = some v ∧
          (a = 0 ∨ p ≤ a → Unpremultiplied16 (2 ^ into.bitDepth - 1) p a v) := by
  have hcpu' : cpu.avx2 = true ∨ cpu.sse41 = true := by tauto
  obtain ⟨work, w1, w2, w3, _, w5, w6⟩ := premultiplied_u16X86 (fma := fma) (fused := fused) (rcp := rcp) hcpu' h hch hb
  obtain ⟨mid, m1, m2, m3⟩ := C76_u16_no_oob (L := L) w6 cpu fma fused
  obtain ⟨c1, c2, c3, _, _, c6⟩ := checkResize_ok.1 h.checked
  have hst : mid.strideOf 4 = into.strideOf 4 := sameShape_strideOf m2
  have hmw : mid.width = into.width := m2.1
  have hmh : mid.height = into.height := m2.2.1
  have hmd : mid.bitDepth = into.bitDepth := m2.2.2.2.2.1
  have hv := sameShape_validate m2 c1
  obtain ⟨out, o1, o2, o3, o4⟩ := unpremultiply16_spec (cpu := cpu) (fma := fma) (rcp := rcp) (img := mid) hcpu' hv
    (by rw [hmw]; exact c3.2.2.1)
  rw [hst, hmw, hmh, hmd] at o4
  refine ⟨work, mid, out, fun hw => (w5 hw).2, m1, withAlpha_compose h.checked h.filter h.sizes w1 w2 w3 m1 o1, ?_⟩
  intro y x hy hx
  have hsamp : ∀ c, c < 4 → sample mid.buffer (into.strideOf 4) 4 y x c = some (pxD 0 mid.buffer (into.strideOf 4) 4 y x c) := by
    intro c hc
    have := sample_some (N := 4) 0 hv (by rw [hmh]; exact hy) (by rw [hmw]; exact hx) hc
    rw [hst] at this
    exact this
  refine ⟨_, hsamp 3 (by omega), fun c hc => ⟨_, _, hsamp c (by omega), o4 y x c hy hx (by omega), ?_⟩⟩
  have hle : ∀ c, c < 4 → pxD 0 mid.buffer (into.strideOf 4) 4 y x c ≤ 65535 := fun c hc =>
    resize_u16X86_le w6 cpu fma fused m1 hy hx hc
  have ha := hle 3 (by omega)
  have hp := hle c (by omega)
  rw [pixelVal, if_pos hc]
  unfold u16Col
  rw [Nat.mod_eq_of_lt (by omega), Nat.mod_eq_of_lt (by omega)]
  intro hpa
  refine ⟨fun h0 => ?_, fun h0 => ?_⟩
  · unfold unpremul16Lane
    rw [if_pos h0, u16_nat, Nat.mod_eq_of_lt (by omega)]
  · have hpa : pxD 0 mid.buffer (into.strideOf 4) 4 y x c ≤ pxD 0 mid.buffer (into.strideOf 4) 4 y x 3 := by tauto
    have hq := unpremul16_value (avx2 := cpu.avx2) (fma := fma) (rcp := rcp) hr (d := into.bitDepth) (c6 rfl).2 (fun hf => by
        rcases hcpu with h' | h'
        · rw [hf] at h'; exact absurd h' (by decide)
        · exact h'.2) (by omega) ha hpa
    refine hq.trans ?_
    have he0 : 0 ≤ ((2 ^ into.bitDepth - 1 : ℕ) : ℚ) * (pxD 0 mid.buffer (into.strideOf 4) 4 y x c : ℕ) /
        (pxD 0 mid.buffer (into.strideOf 4) 4 y x 3 : ℕ) := by positivity
    split_ifs <;> linarith

example : ∃ out, genericResizeWithAlpha (2 ^ 64) 4 (formatU16X86 ⟨true, true⟩ true true 4)
    (alphaX86U16 ⟨true, true⟩ true fun n => 1 / n) demoLib .bilinear (Demo.usrc 10) (Demo.udst 10) true = some (.ok (), out) := by
  obtain ⟨_, _, out, _, _, h, _⟩ := C137_colours_u16_partial (cpu := ⟨true, true⟩) (fma := true) (fused := true)
    (rcp := fun n => 1 / n) (L := demoLib) (Or.inl rfl) exact_reciprocal Demo.ucall10 rfl (by decide +kernel)
  exact ⟨out, h⟩

/-- **C137 fails** in two ways, on a 10-bit image of constant alpha 100: colour 1000 leaves the depth (it comes out as
10230), and colour 50, which the resize keeps, comes out as 511. -/
theorem C137_violated :
    ReciprocalInstruction (fun q => F32.rnd (1 / q)) ∧
    genericResizeWithAlpha (2 ^ 64) 4 (formatU16X86 ⟨true, true⟩ false false 4) (alphaX86U16 ⟨true, true⟩ false fun q => F32.rnd (1 / q))
      demoLib .bilinear ⟨[1000, 50, 0, 100, 1000, 50, 0, 100], 4, 2, 1, 8, 10⟩ ⟨[0, 0, 0, 0], 4, 1, 1, 4, 10⟩ true =
      some (.ok (), ⟨[10230, 511, 0, 100], 4, 1, 1, 4, 10⟩) ∧
    genericResizeWithAlpha (2 ^ 64) 4 (formatU16X86 ⟨true, true⟩ false false 4) (alphaX86U16 ⟨true, true⟩ false fun q => F32.rnd (1 / q))
      demoLib .bilinear ⟨[1000, 50, 0, 100, 1000, 50, 0, 100], 4, 2, 1, 8, 10⟩ ⟨[0, 0, 0, 0], 4, 1, 1, 4, 10⟩ false =
      some (.ok (), ⟨[1000, 50, 0, 100], 4, 1, 1, 4, 10⟩) := by
  refine ⟨rounded_reciprocal, ?_, ?_⟩ <;> decide +kernel

end PicScale
