import Verif.Lemmas.NoBleed
import Verif.Props.AlphaX86
import Verif.Props.AlphaX86U16
import Verif.Props.AlphaX86F32
import Verif.Props.NeonAlpha
import Verif.Props.NeonAlphaU16
import Verif.Props.NeonAlphaF32
import Verif.Props.AlphaF16
import Verif.Props.NeonAlphaF16
import Verif.Props.AlphaF32Resize
import Verif.Props.AlphaResize
import Verif.Props.Avx512Alpha
import Verif.Props.NeonAlphaResize

/-!
Property theorems about invisible pixels: C259–C261. The passes of the format (`F`) are arbitrary.
-/

namespace PicScale

open Spec F16

/-- Two RGBA pictures of integers that differ in colours of transparent pixels only, and a call with
`premultiply_alpha = true` that is accepted, is not `Nearest` and changes the size. Samples are at most `max`, the width
at most `wide`. -/
structure HiddenColours (W : ℕ) (F : Format ℕ) (r : ResamplingFunction) (max wide : ℕ) (a b into : Image ℕ) : Prop where
  differ : DifferInvisibly (· = 0) a b
  visible : SomeVisible (· = 0) a
  checked : checkResize W 4 F.shouldHaveBitDepth a into = .ok ()
  filter : r ≠ .nearest
  sizes : a.width ≠ into.width ∨ a.height ≠ into.height
  samples : (∀ v ∈ a.buffer, v ≤ max) ∧ ∀ v ∈ b.buffer, v ≤ max
  narrow : a.width ≤ wide

theorem HiddenColours.needed {W : ℕ} {F : Format ℕ} {r : ResamplingFunction} {max wide : ℕ} {a b into : Image ℕ}
    (h : HiddenColours W F r max wide a b into) {N : Image ℕ → Bool}
    (hN : ∀ img : Image ℕ, img.validate 4 = .ok () → 0 < img.width → 0 < img.height → (∀ v ∈ img.buffer, v ≤ max) →
      img.width ≤ wide → (N img = true ↔ AlphaVaries img)) (hd : a ≠ b) : N a = true ∧ N b = true := by
  obtain ⟨c1, c2, c3, _⟩ := checkResize_ok.1 h.checked
  obtain ⟨_, e2, e3, _⟩ := h.differ.header
  exact ⟨(hN a c2 c3.1 c3.2.1 h.samples.1 h.narrow).2 (h.differ.varies c2 h.visible hd 0 (Or.inl rfl)),
    (hN b (h.differ.valid c2) (by rw [e2]; exact c3.1) (by rw [e3]; exact c3.2.1) h.samples.2 (by rw [e2]; exact h.narrow)).2
      (h.differ.varies c2 h.visible hd 0 (Or.inr rfl))⟩

/-! ### 8 bit -/

/-- **C259, RGBA8, portable code.** With `premultiply_alpha = true` the result does not depend on the colours of
transparent pixels. -/
theorem C259_no_bleed_u8 {W : ℕ} {F : Format ℕ} {L : Lib} {r : ResamplingFunction} {a b into : Image ℕ}
    (h : HiddenColours W F r 255 (2 ^ 24 - 1) a b into) :
    genericResizeWithAlpha W 4 F alphaU8 L r b into true = genericResizeWithAlpha W 4 F alphaU8 L r a into true := by
  refine noBleed (inv := (· = 0)) (good := fun _ => True) 0 h.differ h.checked h.filter h.sizes (fun _ _ => trivial)
    (fun _ _ => trivial) (col := fun _ _ c a => divBy255 (c * a)) (alp := fun _ _ a => divBy255 (a * a))
    (fun src dst _ hs hd hw hh hp _ => premultiplyImage_spec _ _ 0 hs hd hw hh hp)
    (fun w x c c' v _ _ hv => by simp only [hv, Nat.mul_zero])
    (h.needed fun img h1 h2 h3 h4 h5 => (C37_alpha_check h1 h2 h3).1 h4 (by omega))

/-- **C259, RGBA8, x86** (every CPU below AVX-512, whatever the reciprocal instruction returns). -/
theorem C259_no_bleed_x86 {cpu : Cpu} {rcp : ℚ → ℚ} {W : ℕ} {F : Format ℕ} {L : Lib} {r : ResamplingFunction}
    {a b into : Image ℕ} (h : HiddenColours W F r 255 (2 ^ 24 - 1) a b into) :
    genericResizeWithAlpha W 4 F (alphaX86U8 cpu rcp) L r b into true =
      genericResizeWithAlpha W 4 F (alphaX86U8 cpu rcp) L r a into true := by
  refine noBleed (inv := (· = 0)) (good := fun _ => True) 0 h.differ h.checked h.filter h.sizes (fun _ _ => trivial)
    (fun _ _ => trivial)
    (col := fun _ _ => if cpu.avx2 ∨ cpu.sse41 then premulX else fun c a => divBy255 (c * a))
    (alp := fun _ _ => if cpu.avx2 then fun a => premulX a a else if cpu.sse41 then fun a => a % 256 else fun a => divBy255 (a * a))
    (fun src dst _ hs hd hw hh hp _ => ?_)
    (fun w x c c' v _ _ hv => ?_)
    (h.needed fun img h1 h2 h3 h4 h5 => (C64_alpha_check_partial h1 h2 h3).1 h4 (by omega))
  · unfold alphaX86U8
    dsimp only
    by_cases h1 : cpu.avx2 = true
    · simp only [if_pos h1, if_pos (show cpu.avx2 = true ∨ cpu.sse41 = true from Or.inl h1)]
      exact premultiplyImageWith_spec (alphaChunks_ok (by norm_num) (by norm_num) avxPremulChunk_pixelwise) hs hd hw hh hp
    · by_cases h2 : cpu.sse41 = true
      · simp only [if_neg h1, if_pos h2, if_pos (show cpu.avx2 = true ∨ cpu.sse41 = true from Or.inr h2)]
        exact premultiplyImageWith_spec (alphaChunks_ok (by norm_num) (by norm_num) ssePremulChunk_pixelwise) hs hd hw hh hp
      · simp only [if_neg h1, if_neg h2, if_neg (show ¬ (cpu.avx2 = true ∨ cpu.sse41 = true) from by tauto)]
        exact premultiplyImage_spec _ _ 0 hs hd hw hh hp
  · subst hv
    split_ifs
    · simp [premulX]
    · simp

/-- **C259, RGBA8, AArch64.** -/
theorem C259_no_bleed_neon {W : ℕ} {F : Format ℕ} {L : Lib} {r : ResamplingFunction} {a b into : Image ℕ}
    (h : HiddenColours W F r 255 (2 ^ 23) a b into) :
    genericResizeWithAlpha W 4 F alphaNeonU8 L r b into true = genericResizeWithAlpha W 4 F alphaNeonU8 L r a into true := by
  refine noBleed (inv := (· = 0)) (good := fun _ => True) 0 h.differ h.checked h.filter h.sizes (fun _ _ => trivial)
    (fun _ _ => trivial)
    (col := fun w x => if x < w / 16 * 16 then fun c a => neonDiv255 (c * a) else fun c a => divBy255 (c * a))
    (alp := fun w x => if x < w / 16 * 16 then fun a => a else fun a => divBy255 (a * a))
    (fun src dst _ hs hd hw hh hp _ => premultiplyImageWith_spec_x premulRowNeon_ok hs hd hw hh hp)
    (fun w x c c' v _ _ hv => ?_)
    (h.needed fun img h1 h2 h3 h4 h5 => C151_alpha_check_partial h1 h2 h3 h4 h5)
  subst hv
  split_ifs <;> simp

/-! ### 16 bit -/

/-- **C259, RGBA16, portable code**, at every depth. -/
theorem C259_no_bleed_u16 {W : ℕ} {F : Format ℕ} {L : Lib} {r : ResamplingFunction} {a b into : Image ℕ}
    (h : HiddenColours W F r 65535 (2 ^ 47 - 1) a b into) :
    genericResizeWithAlpha W 4 F alphaU16 L r b into true = genericResizeWithAlpha W 4 F alphaU16 L r a into true := by
  refine noBleed (inv := (· = 0)) (good := fun _ => True) 0 h.differ h.checked h.filter h.sizes (fun _ _ => trivial)
    (fun _ _ => trivial)
    (col := fun _ _ c a => premulValue16 (2 ^ into.bitDepth - 1) (c * a))
    (alp := fun _ _ a => premulValue16 (2 ^ into.bitDepth - 1) (a * a))
    (fun src dst _ hs hd hw hh hp hb => ?_)
    (fun w x c c' v _ _ hv => by simp only [hv, Nat.mul_zero])
    (h.needed fun img h1 h2 h3 h4 h5 => (C37_alpha_check h1 h2 h3).2 h4 (by omega))
  rw [← hb]
  exact premultiplyImage_spec _ _ 0 hs hd hw hh hp

/-- **C259, RGBA16, x86** with SSE4.1 or AVX2, with and without FMA, at every depth. -/
theorem C259_no_bleed_u16X86 {cpu : Cpu} {fma : Bool} {rcp : ℚ → ℚ} {W : ℕ} {F : Format ℕ} {L : Lib}
    {r : ResamplingFunction} {a b into : Image ℕ} (hcpu : cpu.avx2 = true ∨ cpu.sse41 = true)
    (h : HiddenColours W F r 65535 32768 a b into) :
    genericResizeWithAlpha W 4 F (alphaX86U16 cpu fma rcp) L r b into true =
      genericResizeWithAlpha W 4 F (alphaX86U16 cpu fma rcp) L r a into true := by
  refine noBleed (inv := (· = 0)) (good := fun _ => True) 0 h.differ h.checked h.filter h.sizes (fun _ _ => trivial)
    (fun _ _ => trivial)
    (col := fun _ _ => u16Col (premul16Lane cpu.avx2 fma into.bitDepth)) (alp := fun _ _ => (· % 65536))
    (fun src dst _ hs hd hw hh hp hb => by rw [← hb]; exact premultiply16_spec hcpu hs hd hw hh hp)
    (fun w x c c' v _ _ hv => ?_)
    (h.needed fun img h1 h2 h3 h4 h5 => (C64_alpha_check_partial (cpu := cpu) (rcp := rcp) h1 h2 h3).2 h4 h5)
  subst hv
  simp only [u16Col, Nat.zero_mod]
  have h0 : i16 0 = 0 := by decide
  unfold premul16Lane
  split_ifs <;> simp [intLane, scaleLane, F32.mul, h0]

/-- **C259, RGBA16, AArch64**, with and without half precision, at every depth. -/
theorem C259_no_bleed_u16Neon {fp16 fp16' : Bool} {W : ℕ} {F : Format ℕ} {L : Lib} {r : ResamplingFunction}
    {a b into : Image ℕ} (h : HiddenColours W F r 65535 32768 a b into) :
    genericResizeWithAlpha W 4 F (alphaNeonU16 fp16 fp16') L r b into true =
      genericResizeWithAlpha W 4 F (alphaNeonU16 fp16 fp16') L r a into true := by
  refine noBleed (inv := (· = 0)) (good := fun _ => True) 0 h.differ h.checked h.filter h.sizes (fun _ _ => trivial)
    (fun _ _ => trivial)
    (col := fun _ _ => premulN16 fp16 into.bitDepth) (alp := fun _ _ a => a)
    (fun src dst _ hs hd hw hh hp hb => by rw [← hb]; exact premultiply_neon16 hs hd hw hh hp)
    (fun w x c c' v _ _ hv => ?_)
    (h.needed fun img h1 h2 h3 h4 h5 => C152_alpha_check_partial h1 h2 h3 h4 h5)
  subst hv
  unfold premulN16
  have h0 : rnd16 0 = 0 := by decide +kernel
  split_ifs <;> simp [h0, scaleLaneN, F32.mul]

/-! ### examples -/

namespace Demo

/-- A transparent pixel of colour (`r`, 8, 9) and an opaque one. -/
def twoPixels (r : ℕ) : Image ℕ :=
  { buffer := [r, 8, 9, 0, 10, 20, 30, 255], channels := 4, width := 2, height := 1, stride := 8, bitDepth := 8 }

theorem hiddenColours (r r' : ℕ) (hr : r ≤ 255) (hr' : r' ≤ 255) :
    HiddenColours (2 ^ 64) (formatU8 4) .bilinear 255 (2 ^ 24 - 1) (twoPixels r) (twoPixels r') avdst where
  differ := ⟨⟨rfl, rfl, rfl, rfl, rfl⟩, rfl, fun p => match p with
    | 0 => Or.inr ⟨0, 0, 0, (by decide : 0 < 1), (by decide : 0 < 2), by decide, rfl, 0, rfl, rfl⟩
    | _ + 1 => Or.inl rfl⟩
  visible := ⟨0, 1, 255, (by decide : 0 < 1), (by decide : 1 < 2), rfl, by decide⟩
  checked := (by decide : checkResize (2 ^ 64) 4 false (twoPixels 0) avdst = .ok ())
  filter := by decide
  sizes := Or.inl (by decide : 2 ≠ 3)
  samples := ⟨by simp [twoPixels]; omega, by simp [twoPixels]; omega⟩
  narrow := (by decide : 2 ≤ 2 ^ 24 - 1)

end Demo

example : genericResizeWithAlpha (2 ^ 64) 4 (formatU8 4) alphaU8 demoLib .bilinear (Demo.twoPixels 200) Demo.avdst true =
    genericResizeWithAlpha (2 ^ 64) 4 (formatU8 4) alphaU8 demoLib .bilinear (Demo.twoPixels 0) Demo.avdst true :=
  C259_no_bleed_u8 (Demo.hiddenColours 0 200 (by decide) (by decide))

/-- The same conditions for other formats and widths. -/
theorem HiddenColours.of {W : ℕ} {F G : Format ℕ} {r : ResamplingFunction} {m m' w w' : ℕ} {a b into : Image ℕ}
    (h : HiddenColours W F r m w a b into)
    (hb : 1 ≤ into.bitDepth ∧ into.bitDepth ≤ 16) (hm : m ≤ m') (hw : a.width ≤ w') : HiddenColours W G r m' w' a b into :=
  { h with
    checked := by
      obtain ⟨c1, c2, c3, c4, c5, c6⟩ := checkResize_ok.1 h.checked
      exact checkResize_ok.2 ⟨c1, c2, c3, c4, c5, fun _ => hb⟩
    samples := ⟨fun v hv => (h.samples.1 v hv).trans hm, fun v hv => (h.samples.2 v hv).trans hm⟩
    narrow := hw }

example (cpu : Cpu) : genericResizeWithAlpha (2 ^ 64) 4 (formatX86 cpu .preferQuality 4) (alphaX86U8 cpu fun n => 1 / n) demoLib
      .bilinear (Demo.twoPixels 200) Demo.avdst true =
    genericResizeWithAlpha (2 ^ 64) 4 (formatX86 cpu .preferQuality 4) (alphaX86U8 cpu fun n => 1 / n) demoLib
      .bilinear (Demo.twoPixels 0) Demo.avdst true :=
  C259_no_bleed_x86 ((Demo.hiddenColours 0 200 (by decide) (by decide)).of (by decide) le_rfl (by decide : 2 ≤ _))

example : genericResizeWithAlpha (2 ^ 64) 4 (formatNeon true .preferSpeed 4) alphaNeonU8 demoLib .bilinear
      (Demo.twoPixels 200) Demo.avdst true =
    genericResizeWithAlpha (2 ^ 64) 4 (formatNeon true .preferSpeed 4) alphaNeonU8 demoLib .bilinear
      (Demo.twoPixels 0) Demo.avdst true :=
  C259_no_bleed_neon ((Demo.hiddenColours 0 200 (by decide) (by decide)).of (by decide) le_rfl (by decide : 2 ≤ _))

example : HiddenColours (2 ^ 64) (formatU16 true 4) .bilinear 65535 32768 (Demo.twoPixels 0) (Demo.twoPixels 255) Demo.avdst :=
  (Demo.hiddenColours 0 255 (by decide) (by decide)).of (by decide) (by decide) (by decide : 2 ≤ 32768)

/-! ### floating point -/

/-- The same for RGBA f32 pictures; `bits` is `f32::to_bits`. -/
structure HiddenColoursF (W : ℕ) (F : Format ℚ) (bits : ℚ → ℕ) (r : ResamplingFunction) (a b into : Image ℚ) : Prop where
  differ : DifferInvisibly (· = 0) a b
  visible : SomeVisible (· = 0) a
  checked : checkResize W 4 F.shouldHaveBitDepth a into = .ok ()
  filter : r ≠ .nearest
  sizes : a.width ≠ into.width ∨ a.height ≠ into.height
  patterns : BitPatterns bits a ∧ BitPatterns bits b
  narrow : a.width < 2 ^ 31

theorem HiddenColoursF.needed {W : ℕ} {F : Format ℚ} {bits : ℚ → ℕ} {ρ : ℚ → ℚ} {r : ResamplingFunction}
    {a b into : Image ℚ} (h : HiddenColoursF W F bits r a b into) (hd : a ≠ b) :
    (alphaF32 ρ bits).isNeeded a = true ∧ (alphaF32 ρ bits).isNeeded b = true := by
  obtain ⟨c1, c2, c3, _⟩ := checkResize_ok.1 h.checked
  obtain ⟨_, e2, e3, _⟩ := h.differ.header
  exact ⟨(C37_alpha_check_f32 c2 c3.1 c3.2.1 h.narrow h.patterns.1.1 h.patterns.1.2).2
      (h.differ.varies c2 h.visible hd 0 (Or.inl rfl)),
    (C37_alpha_check_f32 (h.differ.valid c2) (by rw [e2]; exact c3.1) (by rw [e3]; exact c3.2.1) (by rw [e2]; exact h.narrow)
      h.patterns.2.1 h.patterns.2.2).2 (h.differ.varies c2 h.visible hd 0 (Or.inr rfl))⟩

/-- **C260, RGBA f32, x86** (every CPU, the portable code included): colours of pixels of alpha 0 do not matter. -/
theorem C260_no_bleed_f32 {cpu : Cpu} {bits : ℚ → ℕ} {W : ℕ} {F : Format ℚ} {L : Lib} {r : ResamplingFunction}
    {a b into : Image ℚ} (h : HiddenColoursF W F bits r a b into) :
    genericResizeWithAlpha W 4 F (alphaX86F32 cpu bits) L r b into true =
      genericResizeWithAlpha W 4 F (alphaX86F32 cpu bits) L r a into true := by
  refine noBleed (inv := (· = 0)) (good := fun _ => True) 0 h.differ h.checked h.filter h.sizes (fun _ _ => trivial)
    (fun _ _ => trivial) (col := fun _ _ c a => F32.rnd (c * a)) (alp := fun _ _ => id)
    (fun src dst _ hs hd hw hh hp _ => premultiplyF_spec cpu bits hs hd hw hh hp)
    (fun w x c c' v _ _ hv => by simp only [hv, mul_zero]) (h.needed (ρ := F32.rnd))

/-- **C260, RGBA f32, AArch64.** -/
theorem C260_no_bleed_f32Neon {bits : ℚ → ℕ} {W : ℕ} {F : Format ℚ} {L : Lib} {r : ResamplingFunction}
    {a b into : Image ℚ} (h : HiddenColoursF W F bits r a b into) :
    genericResizeWithAlpha W 4 F (alphaNeonF32 bits) L r b into true =
      genericResizeWithAlpha W 4 F (alphaNeonF32 bits) L r a into true := by
  refine noBleed (inv := (· = 0)) (good := fun _ => True) 0 h.differ h.checked h.filter h.sizes (fun _ _ => trivial)
    (fun _ _ => trivial) (col := fun _ _ c a => F32.rnd (c * a)) (alp := fun _ _ => id)
    (fun src dst _ hs hd hw hh hp _ => premultiplyNF_spec bits hs hd hw hh hp)
    (fun w x c c' v _ _ hv => by simp only [hv, mul_zero]) (h.needed (ρ := F32.rnd))

/-- A half that is zero, of either sign. -/
def Spec.ZeroHalf (v : ℕ) : Prop := v = 0 ∨ v = 0x8000

theorem ZeroHalf.dec {v : ℕ} (h : ZeroHalf v) : F16.dec v = 0 := by
  rcases h with rfl | rfl <;> decide +kernel

/-- The same for RGBA f16 pictures of finite samples. (Their alpha is not checked: pictures of transparent pixels only
are included.) -/
structure HiddenColoursH (W : ℕ) (F : Format ℕ) (r : ResamplingFunction) (a b into : Image ℕ) : Prop where
  differ : DifferInvisibly ZeroHalf a b
  checked : checkResize W 4 F.shouldHaveBitDepth a into = .ok ()
  filter : r ≠ .nearest
  sizes : a.width ≠ into.width ∨ a.height ≠ into.height
  samples : (∀ v ∈ a.buffer, FiniteHalf v) ∧ ∀ v ∈ b.buffer, FiniteHalf v

/-- **C260, RGBA f16, x86** (every CPU): finite colours of pixels of alpha 0 do not matter. -/
theorem C260_no_bleed_f16 {cpu : HalfCpu} {W : ℕ} {F : Format ℕ} {L : Lib} {r : ResamplingFunction} {a b into : Image ℕ}
    (h : HiddenColoursH W F r a b into) :
    genericResizeWithAlpha W 4 F (alphaF16 cpu halfBits) L r b into true =
      genericResizeWithAlpha W 4 F (alphaF16 cpu halfBits) L r a into true := by
  refine noBleed (inv := ZeroHalf) (good := FiniteHalf) 0 h.differ h.checked h.filter h.sizes h.samples.1 h.samples.2
    (col := fun w x => if x < vectorPixelsH cpu w then
        u16Col fun c a => (halfBits.narrowX cpu.f16c (F32.rnd (halfBits.widenX cpu.f16c c * halfBits.widenX cpu.f16c a)) : ℤ)
      else fun c a => halfBits.narrow (F32.rnd (halfBits.widen c * halfBits.widen a)))
    (alp := fun w x => if x < vectorPixelsH cpu w then fun a => a % 65536 else fun a => halfBits.narrow (halfBits.widen a))
    (fun src dst _ hs hd hw hh hp _ => premultiplyH_spec cpu halfBits hs hd hw hh hp)
    (fun w x c c' v hc hc' hv => ?_) (fun _ => ⟨rfl, rfl⟩)
  have hz : FiniteHalf v := by rcases hv with rfl | rfl <;> (unfold FiniteHalf; decide)
  split_ifs
  · unfold u16Col
    rw [Nat.mod_eq_of_lt hc.1, Nat.mod_eq_of_lt hc'.1, Nat.mod_eq_of_lt hz.1]
    dsimp only
    rw [widenX_finite _ hz, ZeroHalf.dec hv]
    simp only [mul_zero]
  · show enc (F32.rnd (dec c * dec v)) = enc (F32.rnd (dec c' * dec v))
    rw [ZeroHalf.dec hv]
    simp only [mul_zero]

/-- **C260, RGBA f16, AArch64**, with and without half precision. -/
theorem C260_no_bleed_f16Neon {fp16 : Bool} {W : ℕ} {F : Format ℕ} {L : Lib} {r : ResamplingFunction} {a b into : Image ℕ}
    (h : HiddenColoursH W F r a b into) :
    genericResizeWithAlpha W 4 F (alphaNeonF16 fp16 halfBits) L r b into true =
      genericResizeWithAlpha W 4 F (alphaNeonF16 fp16 halfBits) L r a into true := by
  refine noBleed (inv := ZeroHalf) (good := FiniteHalf) 0 h.differ h.checked h.filter h.sizes h.samples.1 h.samples.2
    (col := fun _ _ => premulColN fp16) (alp := fun w x => premulAlpN fp16 w x)
    (fun src dst _ hs hd hw hh hp _ => premultiplyN_spec fp16 hs hd hw hh hp)
    (fun w x c c' v hc hc' hv => ?_) (fun _ => ⟨rfl, rfl⟩)
  have hz : FiniteHalf v := by rcases hv with rfl | rfl <;> (unfold FiniteHalf; decide)
  rw [premulColN_finite fp16 hc hz, premulColN_finite fp16 hc' hz, ZeroHalf.dec hv, mul_zero, mul_zero]

namespace Demo

/-- A transparent pixel of red `r` and an opaque one. -/
def twoPixelsF (r : ℚ) : Image ℚ :=
  { buffer := [r, 1 / 2, 1, 0, 1 / 4, 1 / 2, 3 / 4, 1], channels := 4, width := 2, height := 1, stride := 8, bitDepth := 8 }
def pixelsDstF : Image ℚ :=
  { buffer := List.replicate 12 0, channels := 4, width := 3, height := 1, stride := 12, bitDepth := 8 }
/-- Twice the quarters: a pattern per value. -/
def quarterBits (q : ℚ) : ℕ := (q * 4).num.toNat

/-- Halves: a transparent pixel (alpha -0) of red `r` and an opaque one. -/
def twoPixelsH (r : ℕ) : Image ℕ :=
  { buffer := [r, 0x3800, 0x3C00, 0x8000, 0x3C00, 0x3C00, 0x3800, 0x3C00], channels := 4, width := 2, height := 1,
    stride := 8, bitDepth := 8 }
def pixelsDstH : Image ℕ :=
  { buffer := List.replicate 12 0, channels := 4, width := 3, height := 1, stride := 12, bitDepth := 8 }

end Demo

example : HiddenColoursF (2 ^ 64) (formatFloat (f32Ops F32.rnd false) 0 4) Demo.quarterBits .bilinear (Demo.twoPixelsF 1) (Demo.twoPixelsF 0)
    Demo.pixelsDstF where
  differ := ⟨⟨rfl, rfl, rfl, rfl, rfl⟩, rfl, fun p => match p with
    | 0 => Or.inr ⟨0, 0, 0, (by decide : 0 < 1), (by decide : 0 < 2), by decide, rfl, 0, rfl, rfl⟩
    | _ + 1 => Or.inl rfl⟩
  visible := ⟨0, 1, 1, (by decide : 0 < 1), (by decide : 1 < 2), rfl, by decide⟩
  checked := by decide
  filter := by decide
  sizes := Or.inl (by decide)
  patterns := ⟨⟨by decide +kernel, by decide +kernel⟩, by decide +kernel, by decide +kernel⟩
  narrow := by decide

example (cpu : HalfCpu) : HiddenColoursH (2 ^ 64) (formatF16 cpu halfBits 4) .bilinear (Demo.twoPixelsH 0x7BFF) (Demo.twoPixelsH 0)
    Demo.pixelsDstH where
  differ := ⟨⟨rfl, rfl, rfl, rfl, rfl⟩, rfl, fun p => match p with
    | 0 => Or.inr ⟨0, 0, 0, (by decide : 0 < 1), (by decide : 0 < 2), by decide, rfl, 0x8000, rfl, Or.inr rfl⟩
    | _ + 1 => Or.inl rfl⟩
  checked := (by decide : checkResize (2 ^ 64) 4 false (Demo.twoPixelsH 0x7BFF) Demo.pixelsDstH = .ok ())
  filter := by decide
  sizes := Or.inl (by decide)
  samples := ⟨by unfold FiniteHalf; decide, by unfold FiniteHalf; decide⟩

/-! ### C261: AVX-512 -/

/-- **C261, partial.** With AVX-512 the colours of transparent pixels do not matter if the width is a multiple of 16.
Missing: other widths (`C261_violated`): the alpha check skips their last columns. -/
theorem C261_no_bleed_partial {cpu : Cpu512} (hr : cpu.Real) (h5 : cpu.avx512 = true) {rcp : ℚ → ℚ} {W : ℕ} {F : Format ℕ}
    {L : Lib} {r : ResamplingFunction} {a b into : Image ℕ} (h : HiddenColours W F r 255 (2 ^ 24 - 1) a b into)
    (h16 : a.width % 16 = 0) :
    genericResizeWithAlpha W 4 F (alpha512U8 cpu rcp) L r b into true =
      genericResizeWithAlpha W 4 F (alpha512U8 cpu rcp) L r a into true := by
  have h2 := hr.avx512 h5
  refine noBleed (inv := (· = 0)) (good := fun _ => True) 0 h.differ h.checked h.filter h.sizes (fun _ _ => trivial)
    (fun _ _ => trivial) (col := fun _ _ => premulX) (alp := fun _ _ a => premulX a a)
    (fun src dst _ hs hd hw hh hp _ => ?_)
    (fun w x c c' v _ _ hv => by subst hv; simp [premulX])
    (fun hd => ?_)
  · rw [C226_premultiply hr (rcp' := rcp) hs hd hw hh hp]
    unfold alphaX86U8
    simp only [h2, if_true]
    exact premultiplyImageWith_spec (alphaChunks_ok (by norm_num) (by norm_num) avxPremulChunk_pixelwise) hs hd hw hh hp
  · obtain ⟨c1, c2, c3, _⟩ := checkResize_ok.1 h.checked
    obtain ⟨_, e2, e3, _⟩ := h.differ.header
    have hw := h.narrow
    exact ⟨(C228_check_partial h5 c2 c3.1 c3.2.1 h.samples.1 (by omega) h16).2
        (h.differ.varies c2 h.visible hd 0 (Or.inl rfl)),
      (C228_check_partial h5 (h.differ.valid c2) (by rw [e2]; exact c3.1) (by rw [e3]; exact c3.2.1) h.samples.2
        (by rw [e2]; omega) (by rw [e2]; exact h16)).2 (h.differ.varies c2 h.visible hd 0 (Or.inr rfl))⟩

namespace Demo

/-- Sixteen pixels, the first transparent and of red `r`, the others opaque. -/
def wideHidden (r : ℕ) : Image ℕ :=
  { buffer := [r, 8, 9, 0] ++ (List.replicate 15 [10, 20, 30, 255]).flatten, channels := 4, width := 16, height := 1,
    stride := 64, bitDepth := 8 }

/-- A transparent pixel of red `r` above an opaque black one. -/
def tallHidden (r : ℕ) : Image ℕ :=
  { buffer := [r, 0, 0, 0, 0, 0, 0, 255], channels := 4, width := 1, height := 2, stride := 4, bitDepth := 8 }
def tallDst : Image ℕ :=
  { buffer := List.replicate 12 0, channels := 4, width := 1, height := 3, stride := 4, bitDepth := 8 }

theorem hiddenColours_tall : HiddenColours (2 ^ 64) (format512 cpu512 .preferQuality 4) .bilinear 255 (2 ^ 24 - 1)
    (tallHidden 0) (tallHidden 255) tallDst where
  differ := ⟨⟨rfl, rfl, rfl, rfl, rfl⟩, rfl, fun p => match p with
    | 0 => Or.inr ⟨0, 0, 0, (by decide : 0 < 2), (by decide : 0 < 1), by decide, rfl, 0, rfl, rfl⟩
    | _ + 1 => Or.inl rfl⟩
  visible := ⟨1, 0, 255, (by decide : 1 < 2), (by decide : 0 < 1), rfl, by decide⟩
  checked := by decide
  filter := by decide
  sizes := Or.inr (by decide : 2 ≠ 3)
  samples := ⟨by decide, by decide⟩
  narrow := (by decide : 1 ≤ 2 ^ 24 - 1)

theorem acceptedX86_tall (r : ℕ) (hr : r = 0 ∨ r = 255) :
    AcceptedX86 (2 ^ 64) 4 demoLib .bilinear (tallHidden r) tallDst := by
  rcases hr with rfl | rfl <;>
    exact acceptedX86_of (by constructor <;> decide +kernel) (by decide) (by decide +kernel) (by decide +kernel)

end Demo

example {rcp : ℚ → ℚ} : genericResizeWithAlpha (2 ^ 64) 4 (format512 Demo.cpu512 .preferQuality 4) (alpha512U8 Demo.cpu512 rcp) demoLib
      .bilinear (Demo.wideHidden 200) Demo.avdst true =
    genericResizeWithAlpha (2 ^ 64) 4 (format512 Demo.cpu512 .preferQuality 4) (alpha512U8 Demo.cpu512 rcp) demoLib
      .bilinear (Demo.wideHidden 0) Demo.avdst true :=
  C261_no_bleed_partial Demo.cpu512Real.1 rfl
    { differ := ⟨⟨rfl, rfl, rfl, rfl, rfl⟩, rfl, fun p => match p with
        | 0 => Or.inr ⟨0, 0, 0, (by decide : 0 < 1), (by decide : 0 < 16), by decide, rfl, 0, rfl, rfl⟩
        | _ + 1 => Or.inl rfl⟩
      visible := ⟨0, 1, 255, (by decide : 0 < 1), (by decide : 1 < 16), rfl, by decide⟩
      checked := by decide
      filter := by decide
      sizes := Or.inl (by decide : 16 ≠ 3)
      samples := ⟨by decide, by decide⟩
      narrow := (by decide : 16 ≤ 2 ^ 24 - 1) } rfl

/-- The middle red of a narrow picture resized with AVX-512 and premultiplication: the resized red `p` divided by the
resized alpha 128. -/
theorem narrow_middle {rcp : ℚ → ℚ} (hi : ReciprocalInstruction rcp) {r : ℕ} (hr : r = 0 ∨ r = 255) {p : ℕ}
    (hp : (genericResize (2 ^ 64) 4 (format512 Demo.cpu512 .preferQuality 4) demoLib .bilinear (Demo.tallHidden r)
      Demo.tallDst).map (fun q => (sample q.2.buffer 4 4 1 0 0, sample q.2.buffer 4 4 1 0 3, q.2.buffer.all (· ≤ 255))) =
      some (some p, some 128, true)) :
    ∃ out v, genericResizeWithAlpha (2 ^ 64) 4 (format512 Demo.cpu512 .preferQuality 4) (alpha512U8 Demo.cpu512 rcp) demoLib
        .bilinear (Demo.tallHidden r) Demo.tallDst true = some (.ok (), out) ∧
      sample out.buffer 4 4 1 0 0 = some v ∧ |(v : ℚ) - min 255 (255 * (p : ℚ) / 128)| ≤ 3 / 5 := by
  obtain ⟨plain, out, p1, p2, p3, p4⟩ := C229_violated_narrow (rcp := rcp) (s := .preferQuality) Demo.cpu512Real.1 rfl
    (Demo.acceptedX86_tall r hr) (by show 1 < 16; decide)
  rw [withAlpha_false] at p1
  rw [p1] at hp
  simp only [Option.map_some, Option.some.injEq, Prod.mk.injEq] at hp
  obtain ⟨e1, e2, e3⟩ := hp
  have hd : Demo.tallDst.strideOf 4 = 4 := by decide
  have hst : plain.strideOf 4 = 4 := (sameShape_strideOf p3).trans hd
  obtain ⟨out', o1, _, _, o4⟩ := unpremultiply_x86 (cpu := ⟨true, true⟩) (rcp := rcp) (img := plain) (by decide) hi
    (sameShape_validate p3 (by decide)) (by rw [p3.1]; decide)
    (fun y x c _ _ _ => pxD_le255' (by simpa using e3) y x c)
  obtain rfl : out' = out := (Option.some.inj (p2.symm.trans o1)).symm
  obtain ⟨v, v1, v2, _⟩ := (o4 1 0 (by rw [p3.2.1]; decide) (by rw [p3.1]; decide)).1 0 (by decide)
  rw [hst] at v1 v2
  have ep : pxD 0 plain.buffer 4 4 1 0 0 = p := by simp only [pxD, e1, Option.getD_some]
  have ea : alphaAt plain.buffer 4 1 0 = 128 := by simp only [alphaAt, pxD, e2, Option.getD_some]
  rw [ep, ea] at v2
  exact ⟨out', v, p4, v1, (v2 (by right; left; decide)).2.2 (by decide)⟩

/-- **C261 fails for narrow images**: two pictures that differ in the red of a transparent pixel only are resized to
different pictures (AVX-512). -/
theorem C261_violated {rcp : ℚ → ℚ} (hi : ReciprocalInstruction rcp) :
    HiddenColours (2 ^ 64) (format512 Demo.cpu512 .preferQuality 4) .bilinear 255 (2 ^ 24 - 1) (Demo.tallHidden 0)
      (Demo.tallHidden 255) Demo.tallDst ∧
    ∃ black red v w,
      genericResizeWithAlpha (2 ^ 64) 4 (format512 Demo.cpu512 .preferQuality 4) (alpha512U8 Demo.cpu512 rcp) demoLib
        .bilinear (Demo.tallHidden 0) Demo.tallDst true = some (.ok (), black) ∧
      genericResizeWithAlpha (2 ^ 64) 4 (format512 Demo.cpu512 .preferQuality 4) (alpha512U8 Demo.cpu512 rcp) demoLib
        .bilinear (Demo.tallHidden 255) Demo.tallDst true = some (.ok (), red) ∧
      sample black.buffer 4 4 1 0 0 = some v ∧ v ≤ 1 ∧ sample red.buffer 4 4 1 0 0 = some w ∧ 250 ≤ w := by
  obtain ⟨black, v, b1, b2, b3⟩ := narrow_middle hi (Or.inl rfl) (p := 0) (by decide +kernel)
  obtain ⟨red, w, r1, r2, r3⟩ := narrow_middle hi (Or.inr rfl) (p := 128) (by decide +kernel)
  refine ⟨Demo.hiddenColours_tall, black, red, v, w, b1, r1, b2, ?_, r2, ?_⟩
  · norm_num [abs_le] at b3
    have : (v : ℚ) ≤ 1 := by linarith
    exact_mod_cast this
  · norm_num [abs_le] at r3
    have : (254 : ℚ) ≤ w := by linarith
    have : 254 ≤ w := by exact_mod_cast this
    omega

end PicScale
