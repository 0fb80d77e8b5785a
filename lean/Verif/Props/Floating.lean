import Verif.Lemmas.Floating
import Verif.Model.Formats
import Verif.Props.Resize

/-!
Property theorems about the floating point passes and the u16 / f32 resizes: C45, and C21, C22, C23 for
these formats.
-/

namespace PicScale

open Spec

variable {S A : Type}

/-! ### C45: one pass -/

/-- **C45 (horizontal).** Over any sample type and any float operations in which multiply-adding to zero
is multiplying: on validated images and a valid table the horizontal floating point pass succeeds, writes
at every pixel and channel the left-to-right sum of the window of the same source row, whatever the
window size, height and strides, and writes nothing else. -/
theorem C45_horizontal (o : FloatOps S A) (d0 : S) (law : ∀ a b, o.mla o.zero a b = o.mul a b) {N : ℕ}
    {src dst : Image S} {fw : FilterWeights ℚ}
    (hN : 1 ≤ N ∧ N ≤ 4) (hs : src.validate N = .ok ()) (hd : dst.validate N = .ok ())
    (hh : src.height = dst.height) (hsw : 0 < src.width) (hdw : 0 < dst.width)
    (hT : ValidTable fw src.width dst.width) :
    ∃ out, horizontalFloat o N src dst fw = some out ∧ SameShape out dst ∧ PaddingKept N dst out ∧
      ∀ y x c, y < dst.height → x < dst.width → c < N →
        sample out.buffer (dst.strideOf N) N y x c = some (o.fin (leftSum o.mul o.mla
          (fun k => o.conv (pxD d0 src.buffer (src.strideOf N) N y ((fw.bound x).start + k) c))
          (fun k => o.weight (fw.weight x k)) (fw.bound x).size)) := by
  obtain ⟨r, h1, h2, h3, h4⟩ := horizontalFloat_raw o d0 hN hs hd hh hsw hdw hT
  refine ⟨_, h1, ⟨rfl, rfl, rfl, rfl, rfl, h2⟩, paddingKept_of hN.1 hd h2 h4, ?_⟩
  intro y x c hy hx hc
  simp only [sample]
  rw [h3 y x c hy hx hc, floatVal_leftSum law (hT.size_pos x hx)]
  rfl

/-- **C45 (vertical).** The same for the vertical pass and every row width. -/
theorem C45_vertical (o : FloatOps S A) (d0 : S) (law : ∀ a b, o.mla o.zero a b = o.mul a b) {N : ℕ}
    {src dst : Image S} {fw : FilterWeights ℚ}
    (hN : 1 ≤ N) (hs : src.validate N = .ok ()) (hd : dst.validate N = .ok ())
    (hw : src.width = dst.width) (hdw : 0 < dst.width)
    (hT : ValidTable fw src.height dst.height) :
    ∃ out, verticalFloat o N src dst fw = some out ∧ SameShape out dst ∧ PaddingKept N dst out ∧
      ∀ y x c, y < dst.height → x < dst.width → c < N →
        sample out.buffer (dst.strideOf N) N y x c = some (o.fin (leftSum o.mul o.mla
          (fun k => o.conv (pxD d0 src.buffer (src.strideOf N) N ((fw.bound y).start + k) x c))
          (fun k => o.weight (fw.weight y k)) (fw.bound y).size)) := by
  obtain ⟨r, h1, h2, h3, h4⟩ := verticalFloat_raw o d0 hN hs hd hw hdw hT
  refine ⟨_, h1, ⟨rfl, rfl, rfl, rfl, rfl, h2⟩, paddingKept_of hN hd h2 h4, ?_⟩
  intro y x c hy hx hc
  simp only [sample]
  rw [h3 y x c hy hx hc, floatVal_leftSum law (hT.size_pos y hy)]
  rfl

/-- Both builds of `mlaf` satisfy the law, for every rounding that fixes its own results. -/
theorem mlaf_law {ρ : ℚ → ℚ} (hρ : ∀ v, ρ (ρ v) = ρ v) (fused : Bool) (a b : ℚ) :
    mlaf ρ fused 0 a b = ρ (a * b) := by
  unfold mlaf
  cases fused <;> simp [hρ]

theorem rnd_rnd (v : ℚ) : F32.rnd (F32.rnd v) = F32.rnd v := (F32.rep_rnd v).rnd

/-- A table with windows of 1, 2 and 3 taps. -/
def Demo.ftab : FilterWeights ℚ :=
  { weights := [1, 0, 0, 1/2, 1/2, 0, 1/4, 1/2, 1/4], bounds := [⟨0, 1⟩, ⟨0, 2⟩, ⟨0, 3⟩], kernelSize := 3,
    alignedSize := 3, distinctElements := 3 }

theorem Demo.ftab_valid : ValidTable Demo.ftab 3 3 := by
  refine ⟨by decide, by decide, by decide, ?_, ?_, ?_⟩ <;> decide

def Demo.fsrc : Image ℚ :=
  { buffer := [1, 2, 3, 77, 4, 5, 6, 77, 7, 8, 9, 77, 10, 11, 12, 77, 13, 14, 15, 77], channels := 1, width := 3, height := 5,
    stride := 4, bitDepth := 0 }
def Demo.fdst : Image ℚ :=
  { buffer := List.replicate 20 (-1), channels := 1, width := 3, height := 5, stride := 4, bitDepth := 0 }

example : ∃ out, horizontalFloat (f32Ops F32.rnd true) 1 Demo.fsrc Demo.fdst Demo.ftab = some out ∧
    sample out.buffer 4 1 4 2 0 = some 14 := by
  obtain ⟨out, h1, _, _, h4⟩ := C45_horizontal (f32Ops F32.rnd true) 0 (mlaf_law rnd_rnd true) (N := 1)
    (src := Demo.fsrc) (dst := Demo.fdst) (by decide) (by decide) (by decide) (by decide) (by decide) (by decide)
    Demo.ftab_valid
  refine ⟨out, h1, ?_⟩
  refine (h4 4 2 0 (by decide) (by decide) (by decide)).trans ?_
  decide +kernel

/-! ### the formats as pass pairs -/

theorem passOK_float (o : FloatOps S A) (d0 : S) (law : ∀ a b, o.mla o.zero a b = o.mul a b) {N : ℕ}
    (hN : 1 ≤ N ∧ N ≤ 4) (d : ℕ) :
    PassOK N (formatFloat o d0 N) d (fun _ => True) (fun _ _ => True)
      (fun fw i p => o.fin (leftSum o.mul o.mla (fun k => o.conv (p k)) (fun k => o.weight (fw.weight i k)) (fw.bound i).size))
      (fun fw i p => o.fin (leftSum o.mul o.mla (fun k => o.conv (p k)) (fun k => o.weight (fw.weight i k)) (fw.bound i).size)) := by
  constructor
  · intro src dst fw hs hd hw hdw _ hT _ _
    exact C45_vertical o d0 law hN.1 hs hd hw hdw hT
  · intro src dst fw hs hd hh hsw hdw _ hT _ _
    exact C45_horizontal o d0 law hN hs hd hh hsw hdw hT
  · intro _ _ _; trivial
  · intro fw i p p' hn h
    congr 1
    exact leftSum_congr hn (fun k hk => by rw [h k hk]) (fun _ _ => rfl)
  · intro fw i p p' hn h
    congr 1
    exact leftSum_congr hn (fun k hk => by rw [h k hk]) (fun _ _ => rfl)

/-- An accepted convolution resize of a float format. -/
structure AcceptedF (W N : ℕ) (r : ResamplingFunction) (store into : Image S) : Prop where
  channels : 1 ≤ N ∧ N ≤ 4
  checked : checkResize W N false store into = .ok ()
  filter : r ≠ .nearest
  sizes : store.width ≠ into.width ∨ store.height ≠ into.height
  small : store.width ≤ 2 ^ 23 ∧ store.height ≤ 2 ^ 23
  area : r = .area → into.width ≤ 2 ^ 22 ∧ into.height ≤ 2 ^ 22
  fits : store.width * into.height * N < W

/-- **C45 (resize).** An accepted f32 resize succeeds and every sample is the horizontal left-to-right
sum of the vertical left-to-right sums of its channel; only the dimensions that change are filtered, and
nothing outside the pixels is written. Holds for every float arithmetic with the stated law. -/
theorem C45_resize (o : FloatOps S A) (d0 : S) (law : ∀ a b, o.mla o.zero a b = o.mul a b) {W N : ℕ} {L : Lib}
    {r : ResamplingFunction} {store into : Image S} (h : AcceptedF W N r store into) :
    ∃ vf hf out, tableOf L r store.height into.height = some vf ∧ tableOf L r store.width into.width = some hf ∧
      ValidTable vf store.height into.height ∧ ValidTable hf store.width into.width ∧
      genericResize W N (formatFloat o d0 N) L r store into = some (.ok (), out) ∧
      SameShape out into ∧ PaddingKept N into out ∧
      ∀ y x c, y < into.height → x < into.width → c < N →
        sample out.buffer (into.strideOf N) N y x c = some
          (separable store.width store.height into.width into.height
            (fun i => (vf.bound i).start)
            (fun i p => o.fin (leftSum o.mul o.mla (fun k => o.conv (p k)) (fun k => o.weight (vf.weight i k)) (vf.bound i).size))
            (fun i => (hf.bound i).start)
            (fun i p => o.fin (leftSum o.mul o.mla (fun k => o.conv (p k)) (fun k => o.weight (hf.weight i k)) (hf.bound i).size))
            (fun y x => pxD d0 store.buffer (store.strideOf N) N y x c) y x) := by
  obtain ⟨c1, c2, c3, _⟩ := checkResize_ok.1 h.checked
  obtain ⟨vf, ev, Tv, Sv⟩ := table_exists L r (out := into.height) c3.2.1 h.small.2 (fun ha => (h.area ha).2)
  obtain ⟨hf, eh, Th, Sh⟩ := table_exists L r (out := into.width) c3.1 h.small.1 (fun ha => (h.area ha).1)
  obtain ⟨out, o1, o2, o3, o4⟩ := convolve_spec (W := W) (passOK_float o d0 law h.channels into.bitDepth) h.channels.1
    (table := tableOf L r) c2 c1 c3.1 c3.2.2.1 rfl h.sizes h.fits ev eh Tv Th trivial trivial (fun _ _ => trivial)
  exact ⟨vf, hf, out, ev, eh, Tv, Th, genericResize_conv h.checked h.filter h.sizes o1, o2, o3, o4⟩

/-- A padded 1-channel f32 image (values up to 15, one fractional), both dimensions change. -/
def Demo.frsrc : Image ℚ :=
  { buffer := [1, 2, 3, 77, 4, 1/3, 6, 77, 7, 8, 9, 77], channels := 1, width := 3, height := 3, stride := 4, bitDepth := 0 }
def Demo.frdst : Image ℚ :=
  { buffer := List.replicate 12 (-1), channels := 1, width := 5, height := 2, stride := 6, bitDepth := 0 }

theorem Demo.acceptedF : AcceptedF (2 ^ 64) 1 .bilinear Demo.frsrc Demo.frdst := by
  constructor
  · decide
  · decide +kernel
  · decide
  · decide
  · decide
  · simp
  · decide

example : ∃ out, genericResize (2 ^ 64) 1 (formatFloat (f32Ops F32.rnd true) 0 1) demoLib .bilinear Demo.frsrc Demo.frdst =
    some (.ok (), out) ∧ PaddingKept 1 Demo.frdst out := by
  obtain ⟨_, _, out, _, _, _, _, h1, _, h2, _⟩ :=
    C45_resize (f32Ops F32.rnd true) 0 (mlaf_law rnd_rnd true) (L := demoLib) Demo.acceptedF
  exact ⟨out, h1, h2⟩

/-- The result is not trivial: a pixel and a padding element of the first output row. -/
example : (genericResize (2 ^ 64) 1 (formatFloat (f32Ops F32.rnd true) 0 1) demoLib .bilinear Demo.frsrc
    Demo.frdst).map (fun r => (r.2.buffer.getD 0 0, r.2.buffer.getD 5 0)) = some ((8912897 / 4194304 : ℚ), (-1 : ℚ)) := by
  decide +kernel

end PicScale
