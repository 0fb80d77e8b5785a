import Verif.Lemmas.X86Abs
import Verif.Lemmas.ResizeGeneral

/-!
Resizes whose passes may look at any sample of the picture: the values depend on positions inside the row
(`x * N + c`), as the u16 handlers on x86 need.
-/

namespace PicScale

open Spec

variable {S : Type}

/-- A picture as a function of row and position inside the row. -/
def rowPos (d0 : S) (buf : List S) (stride y q : ℕ) : S := buf.getD (y * stride + q) d0

theorem rowPos_pxD (d0 : S) (buf : List S) (stride N y x c : ℕ) :
    rowPos d0 buf stride y (x * N + c) = pxD d0 buf stride N y x c := by
  rw [rowPos, pxD, ← Nat.add_assoc, List.getD_eq_getElem?_getD]
  rfl

/-- What is proved about two passes: `vv table width y position picture`, `hv table height y x c row`. -/
structure PassFun (N : ℕ) (F : Format S) (d : ℕ) (okT : FilterWeights ℚ → ℕ → Prop)
    (vv : FilterWeights ℚ → ℕ → ℕ → ℕ → (ℕ → ℕ → S) → S)
    (hv : FilterWeights ℚ → ℕ → ℕ → ℕ → ℕ → (ℕ → S) → S) : Prop where
  vertical : ∀ (src dst : Image S) (fw : FilterWeights ℚ), src.validate N = .ok () →
    dst.validate N = .ok () → src.width = dst.width → 0 < dst.width → dst.bitDepth = d →
    ValidTable fw src.height dst.height → okT fw dst.height →
    ∃ out, F.vertical src dst fw = some out ∧ SameShape out dst ∧ PaddingKept N dst out ∧
      ∀ y x c, y < dst.height → x < dst.width → c < N →
        sample out.buffer (dst.strideOf N) N y x c = some (vv fw src.width y (x * N + c)
          (rowPos F.default src.buffer (src.strideOf N)))
  horizontal : ∀ (src dst : Image S) (fw : FilterWeights ℚ), src.validate N = .ok () →
    dst.validate N = .ok () → src.height = dst.height → 0 < src.width → 0 < dst.width → dst.bitDepth = d →
    ValidTable fw src.width dst.width → okT fw dst.width →
    ∃ out, F.horizontal src dst fw = some out ∧ SameShape out dst ∧ PaddingKept N dst out ∧
      ∀ y x c, y < dst.height → x < dst.width → c < N →
        sample out.buffer (dst.strideOf N) N y x c = some (hv fw dst.height y x c
          (rowPos F.default src.buffer (src.strideOf N) y))
  cong_h : ∀ fw inn out H y x c p p', ValidTable fw inn out → okT fw out → x < out → c < N →
    (∀ q, q < inn * N → p q = p' q) → hv fw H y x c p = hv fw H y x c p'

/-- Columns first, then rows; a dimension that does not change is not filtered. -/
def sepFun (N sw sh dw dh : ℕ) (vv : ℕ → ℕ → (ℕ → ℕ → S) → S) (hv : ℕ → ℕ → ℕ → (ℕ → S) → S)
    (p : ℕ → ℕ → S) (y x c : ℕ) : S :=
  let col := fun q => if sh = dh then p y q else vv y q p
  if sw = dw then col (x * N + c) else hv y x c col

theorem convolve_fun {W N d : ℕ} {F : Format S} {okT : FilterWeights ℚ → ℕ → Prop}
    {vv : FilterWeights ℚ → ℕ → ℕ → ℕ → (ℕ → ℕ → S) → S}
    {hv : FilterWeights ℚ → ℕ → ℕ → ℕ → ℕ → (ℕ → S) → S}
    (P : PassFun N F d okT vv hv) (hN : 1 ≤ N)
    {table : ℕ → ℕ → Option (FilterWeights ℚ)} {store into : Image S} {vf hf : FilterWeights ℚ}
    (hs : store.validate N = .ok ()) (hd : into.validate N = .ok ()) (hsw : 0 < store.width)
    (hdw : 0 < into.width) (hbd : into.bitDepth = d)
    (hne : store.width ≠ into.width ∨ store.height ≠ into.height)
    (hfit : store.width * into.height * N < W)
    (ev : table store.height into.height = some vf) (eh : table store.width into.width = some hf)
    (Tv : ValidTable vf store.height into.height) (Th : ValidTable hf store.width into.width)
    (Ov : okT vf into.height) (Oh : okT hf into.width) :
    ∃ out, convolve W N F table store into = some out ∧ SameShape out into ∧ PaddingKept N into out ∧
      ∀ y x c, y < into.height → x < into.width → c < N →
        sample out.buffer (into.strideOf N) N y x c = some (sepFun N store.width store.height
          into.width into.height (vv vf store.width) (hv hf into.height)
          (rowPos F.default store.buffer (store.strideOf N)) y x c) := by
  unfold convolve
  by_cases h1 : store.width = into.width
  · have h2 : store.height ≠ into.height := by tauto
    rw [if_neg (by tauto), if_pos h2, ev]
    obtain ⟨out, o1, o2, o3, o4⟩ := P.vertical store into vf hs hd h1 hdw hbd Tv Ov
    refine ⟨out, o1, o2, o3, ?_⟩
    intro y x c hy hx hc
    rw [o4 y x c hy hx hc]
    simp only [sepFun, if_pos h1, if_neg h2]
  by_cases h2 : store.height = into.height
  · rw [if_neg (by tauto), if_neg (by tauto), eh]
    obtain ⟨out, o1, o2, o3, o4⟩ := P.horizontal store into hf hs hd h2 hsw hdw hbd Th Oh
    refine ⟨out, o1, o2, o3, ?_⟩
    intro y x c hy hx hc
    rw [o4 y x c hy hx hc]
    simp only [sepFun, if_neg h1, if_pos h2]
  · rw [if_pos ⟨h1, h2⟩, tempImage_some hfit, ev, eh]
    simp only [Option.bind_eq_bind, Option.bind_some]
    obtain ⟨t, t1, t2, _, t4⟩ := P.vertical store
      { buffer := List.replicate (store.width * into.height * N) F.default, channels := N,
        width := store.width, height := into.height, stride := store.width * N, bitDepth := into.bitDepth }
      vf hs (packed_validate (by rw [List.length_replicate])) rfl hsw hbd Tv Ov
    obtain ⟨_, _, _, _, _, tl⟩ := t2
    simp only [List.length_replicate] at tl
    simp only [packed_strideOf] at t4
    rw [t1]
    simp only [Option.bind_some]
    have hmid : (Image.mk t.buffer N store.width into.height (store.width * N) into.bitDepth).validate N
        = .ok () := packed_validate tl
    obtain ⟨out, o1, o2, o3, o4⟩ := P.horizontal
      (Image.mk t.buffer N store.width into.height (store.width * N) into.bitDepth) into hf hmid hd rfl
      hsw hdw hbd Th Oh
    refine ⟨out, o1, o2, o3, ?_⟩
    intro y x c hy hx hc
    rw [o4 y x c hy hx hc]
    simp only [sepFun, if_neg h1, if_neg h2]
    congr 1
    apply P.cong_h _ _ _ _ _ _ _ _ _ Th Oh hx hc
    intro q hq
    rw [packed_strideOf]
    have hx' : q / N < store.width := Nat.div_lt_of_lt_mul (by rw [Nat.mul_comm]; exact hq)
    have hc' : q % N < N := Nat.mod_lt _ hN
    have hq' : q / N * N + q % N = q := by rw [Nat.mul_comm]; exact Nat.div_add_mod q N
    have := t4 y (q / N) (q % N) hy hx' hc'
    rw [← hq', rowPos_pxD]
    simp only [pxD]
    rw [this]
    rfl

theorem resize_fun {W N d : ℕ} {F : Format S} {okT : FilterWeights ℚ → ℕ → Prop}
    {vv : FilterWeights ℚ → ℕ → ℕ → ℕ → (ℕ → ℕ → S) → S}
    {hv : FilterWeights ℚ → ℕ → ℕ → ℕ → ℕ → (ℕ → S) → S}
    (P : PassFun N F d okT vv hv) {good : S → Prop} {L : Lib} {r : ResamplingFunction} {store into : Image S}
    (h : AcceptedBy W N F good okT L r store into) (hd : into.bitDepth = d) :
    ∃ vf hf out, tableOf L r store.height into.height = some vf ∧ tableOf L r store.width into.width = some hf ∧
      ValidTable vf store.height into.height ∧ ValidTable hf store.width into.width ∧
      PlainShape vf into.height ∧ PlainShape hf into.width ∧
      genericResize W N F L r store into = some (.ok (), out) ∧ SameShape out into ∧ PaddingKept N into out ∧
      ∀ y x c, y < into.height → x < into.width → c < N →
        sample out.buffer (into.strideOf N) N y x c = some (sepFun N store.width store.height
          into.width into.height (vv vf store.width) (hv hf into.height)
          (rowPos F.default store.buffer (store.strideOf N)) y x c) := by
  obtain ⟨c1, c2, c3, _⟩ := checkResize_ok.1 h.checked
  obtain ⟨vf, ev, Tv, Sv⟩ := table_exists L r (out := into.height) c3.2.1 h.small.2 (fun ha => (h.area ha).2)
  obtain ⟨hf, eh, Th, Sh⟩ := table_exists L r (out := into.width) c3.1 h.small.1 (fun ha => (h.area ha).1)
  obtain ⟨out, o1, o2, o3, o4⟩ := convolve_fun (W := W) P h.channels.1
    (table := tableOf L r) c2 c1 c3.1 c3.2.2.1 hd h.sizes h.fits ev eh Tv Th
    (h.tables.1 vf ev Sv) (h.tables.2 hf eh Sh)
  exact ⟨vf, hf, out, ev, eh, Tv, Th, Sv, Sh, genericResize_conv h.checked h.filter h.sizes o1, o2, o3, o4⟩

end PicScale
