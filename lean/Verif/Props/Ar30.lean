import Verif.Lemmas.Ar30Dispatch
import Verif.Props.Resize

/-!
Property theorems about packed 10-bit images: C39, C40, C41, C49, C50.
-/

namespace PicScale

open Spec Finset

/-! ### C39: packing -/

/-- **C39, layout and round trip.** For both layouts, both byte orders and both kinds of machine:
* the bytes stored for a pixel with 10-bit components `r, g, b` have those components at the
  positions the format prescribes, and full alpha;
* unpacking the packed number gives the components back;
* a pixel read from four bytes has the components the format prescribes (alpha is reported as 3);
* storing the components read from the bytes of an opaque pixel gives the same four bytes. -/
theorem C39_roundtrip (F : Fmt30) :
    (∀ r g b, r < 1024 → g < 1024 → b < 1024 →
      let bytes := toNeBytes F.endian (pack30 F.endian F.ty F.order r g b)
      let w := word30 F.bigFirst (fun i => bytes.getD i 0)
      bytes.length = 4 ∧ comp30 F.ty 0 w = r ∧ comp30 F.ty 1 w = g ∧ comp30 F.ty 2 w = b ∧ comp30 F.ty 3 w = 3 ∧
        unpack30 F.endian F.ty F.order (pack30 F.endian F.ty F.order r g b) = [r, g, b, 3]) ∧
    (∀ b0 b1 b2 b3, b0 < 256 → b1 < 256 → b2 < 256 → b3 < 256 →
      let w := word30 F.bigFirst (fun i => [b0, b1, b2, b3].getD i 0)
      let p := unpack30 F.endian F.ty F.order (fromNeBytes F.endian b0 b1 b2 b3)
      p = [comp30 F.ty 0 w, comp30 F.ty 1 w, comp30 F.ty 2 w, 3] ∧
      (comp30 F.ty 3 w = 3 →
        toNeBytes F.endian (pack30 F.endian F.ty F.order (p.getD 0 0) (p.getD 1 0) (p.getD 2 0)) = [b0, b1, b2, b3])) := by
  constructor
  · intro r g b hr hg hb
    have h := stored_word F hr hg hb
    have hc := comp30_packed F.ty hr hg hb
    simp only
    rw [h]
    refine ⟨toNeBytes_length _ _, hc.1, hc.2.1, hc.2.2.1, hc.2.2.2, ?_⟩
    exact unpack_pack F hr hg hb
  · intro b0 b1 b2 b3 h0 h1 h2 h3
    have hu := unpack_bytes F h0 h1 h2 h3
    refine ⟨hu, fun ha => ?_⟩
    simp only [hu]
    exact repack_bytes F h0 h1 h2 h3 ha

example : unpack30 .little .ra30 .network (pack30 .little .ra30 .network 1000 3 517) = [1000, 3, 517, 3] := by decide +kernel
/-- A translucent pixel does not survive: alpha is set to 3. -/
example : toNeBytes .little (pack30 .little .ar30 .host 1 2 3) = [1, 8, 48, 192] ∧
    unpack30 .little .ar30 .host (fromNeBytes .little 1 8 48 0) = [1, 2, 3, 3] := by decide +kernel

/-! ### C50: errors of resize_ar30 -/

/-- The layout check for packed images. -/
theorem check30_ok {W : ℕ} {src dst : Image ℕ} : check30 W src dst = .ok () ↔
    (0 < src.width ∧ 0 < src.height ∧ 0 < dst.width ∧ 0 < dst.height) ∧
      src.width * src.height * 4 < W ∧ dst.width * dst.height * 4 < W ∧ LayoutOK 4 src ∧ LayoutOK 4 dst := by
  unfold check30 LayoutOK
  simp only [bind, Except.bind, pure, Except.pure, throw, throwThe, MonadExceptOf.throw]
  by_cases h0 : src.width = 0 ∨ src.height = 0 ∨ dst.width = 0 ∨ dst.height = 0
  · simp only [h0, if_true]; simp; omega
  · have hs : checkImageSizeOverflow W src.width src.height 4 = true ↔ W ≤ src.width * src.height * 4 :=
      C05_size_check (by omega)
    have hd : checkImageSizeOverflow W dst.width dst.height 4 = true ↔ W ≤ dst.width * dst.height * 4 :=
      C05_size_check (by omega)
    simp only [h0, if_false, hs, hd]
    split_ifs <;> simp <;> omega

/-- **C50.** `resize_ar30` returns `Ok` exactly for images of non-zero representable size whose buffers
have `stride * height` bytes with rows that hold the pixels; in every other case it returns an error of
the documented kind and does not touch the destination. (When it does not panic; see C41.) -/
theorem C50_errors {W : ℕ} {F : Fmt30} {L : Lib} {r : ResamplingFunction} {src dst : Image ℕ}
    {res : Except Err Unit} {out : List ℕ} (h : resize30 W F L r src dst = some (res, out)) :
    let nonZero := 0 < src.width ∧ 0 < src.height ∧ 0 < dst.width ∧ 0 < dst.height
    let srcFits := src.width * src.height * 4 < W
    let dstFits := dst.width * dst.height * 4 < W
    (res = .ok () ↔ nonZero ∧ srcFits ∧ dstFits ∧ LayoutOK 4 src ∧ LayoutOK 4 dst) ∧
    (∀ e, res = .error e → out = dst.buffer) ∧
    (¬ nonZero → res = .error .zeroImageDimensions) ∧
    (nonZero → ¬ srcFits → res = .error .sourceImageIsTooLarge) ∧
    (nonZero → srcFits → ¬ dstFits → res = .error .destinationImageIsTooLarge) ∧
    (nonZero → srcFits → dstFits → ¬ (LayoutOK 4 src ∧ LayoutOK 4 dst) →
      ∃ e, res = .error e ∧ (e.code = 4 ∨ e.code = 5)) := by
  intro nonZero srcFits dstFits
  have key : check30 W src dst = res ∧ (∀ e, res = .error e → out = dst.buffer) := by
    unfold resize30 at h
    cases hc : check30 W src dst with
    | error e =>
      rw [hc] at h
      simp only [Option.some.injEq, Prod.mk.injEq] at h
      exact ⟨h.1, fun _ _ => h.2.symm⟩
    | ok u =>
      rw [hc] at h
      have : res = .ok () := by
        simp only [Option.bind_eq_bind] at h
        split_ifs at h
        · simp at h; exact h.1.symm
        · obtain ⟨d, _, h⟩ := Option.bind_eq_some_iff.1 h
          simp at h; exact h.1.symm
        · obtain ⟨d, _, h⟩ := Option.bind_eq_some_iff.1 h
          obtain ⟨d, _, h⟩ := Option.bind_eq_some_iff.1 h
          simp at h; exact h.1.symm
        · obtain ⟨d, _, h⟩ := Option.bind_eq_some_iff.1 h
          obtain ⟨d, _, h⟩ := Option.bind_eq_some_iff.1 h
          obtain ⟨d, _, h⟩ := Option.bind_eq_some_iff.1 h
          obtain ⟨d, _, h⟩ := Option.bind_eq_some_iff.1 h
          simp at h; exact h.1.symm
        · obtain ⟨d, _, h⟩ := Option.bind_eq_some_iff.1 h
          obtain ⟨d, _, h⟩ := Option.bind_eq_some_iff.1 h
          simp at h; exact h.1.symm
      rw [this]
      exact ⟨rfl, by simp⟩
  obtain ⟨hres, hout⟩ := key
  subst hres
  refine ⟨check30_ok, hout, ?_, ?_, ?_, ?_⟩
  all_goals
    unfold check30
    simp only [bind, Except.bind, pure, Except.pure, throw, throwThe, MonadExceptOf.throw]
  · intro h0
    rw [if_pos (by simp only [nonZero] at h0; omega)]
  all_goals
    intro h0
    rw [if_neg (by simp only [nonZero] at h0; omega)]
    have hs : checkImageSizeOverflow W src.width src.height 4 = true ↔ W ≤ src.width * src.height * 4 :=
      C05_size_check h0.2.1
    have hd : checkImageSizeOverflow W dst.width dst.height 4 = true ↔ W ≤ dst.width * dst.height * 4 :=
      C05_size_check h0.2.2.2
    simp only [hs, hd]
  · intro h1
    rw [if_pos (by simp only [srcFits] at h1; omega)]
  · intro h1 h2
    rw [if_neg (by simp only [srcFits] at h1; omega), if_pos (by simp only [dstFits] at h2; omega)]
  · intro h1 h2 h3
    rw [if_neg (by simp only [srcFits] at h1; omega), if_neg (by simp only [dstFits] at h2; omega)]
    unfold LayoutOK at h3
    split_ifs
    · exact ⟨_, rfl, Or.inl rfl⟩
    · exact ⟨_, rfl, Or.inr rfl⟩
    · exact ⟨_, rfl, Or.inl rfl⟩
    · exact ⟨_, rfl, Or.inr rfl⟩
    · omega

example : (resize30 (2 ^ 64) ⟨.little, .ar30, .host⟩ demoLib .bilinear ⟨[1, 2, 3, 4], 4, 1, 1, 4, 0⟩
    ⟨[9, 9, 9, 9, 9, 9, 9], 4, 1, 2, 4, 0⟩).map (·.2) = some [9, 9, 9, 9, 9, 9, 9] := by decide +kernel

/-! ### C49: the whole resize -/

/-- An accepted convolution resize of packed images. -/
structure Accepted30 (W : ℕ) (L : Lib) (r : ResamplingFunction) (src dst : Image ℕ) : Prop where
  checked : check30 W src dst = .ok ()
  filter : r ≠ .nearest
  sizes : src.width ≠ dst.width ∨ src.height ≠ dst.height
  small : src.width ≤ 2 ^ 23 ∧ src.height ≤ 2 ^ 23
  area : r = .area → dst.width ≤ 2 ^ 22 ∧ dst.height ≤ 2 ^ 22
  fits : src.width * dst.height * 4 < W
  bytes : ∀ v ∈ src.buffer, v < 256
  noOverflow : (∀ q, IsTable L r src.height dst.height q → NoOverflow q dst.height 1023) ∧
    (∀ q, IsTable L r src.width dst.width q → NoOverflow q dst.width 1023)

/-- The value written by one pass over 10-bit components: `n` taps of window `i`, rounded, clamped. -/
def v30 (q : FilterWeights ℤ) (n i : ℕ) (p : ℕ → ℕ) : ℕ := fixedRound 1023 n (fun k => q.weight i k) p

theorem v30_congr {q : FilterWeights ℤ} {n i : ℕ} {p p' : ℕ → ℕ} (h : ∀ k, k < n → p k = p' k) :
    v30 q n i p = v30 q n i p' := by
  unfold v30 fixedRound
  congr 2
  exact wsum_congr (fun _ _ => rfl) fun k hk => by rw [h k hk]

/-- What a resize of packed images writes, for every filter and every pair of sizes and strides, except
that a purely vertical resize needs equal strides (see `C41_vertical_stride_violated`): every component
of every pixel is the (rounded, clamped) horizontal fixed point sum of the vertical fixed point sums of
the same component, alpha is 3, row padding is kept. The number of taps of the horizontal sum is
`taps30`: all taps of the window in rows handled in groups of four, but `size / 4` taps in the
remaining `height % 4` rows when the window has not 2, 3, 4 or 6 pixels. -/
theorem resize30_exact (F : Fmt30) {W : ℕ} {L : Lib} {r : ResamplingFunction} {src dst : Image ℕ}
    (h : Accepted30 W L r src dst) (hst : src.width = dst.width → src.stride = dst.stride) :
    ∃ qv qh out, IsTable L r src.height dst.height qv ∧ IsTable L r src.width dst.width qh ∧
      ValidTable qv src.height dst.height ∧ ValidTable qh src.width dst.width ∧
      resize30 W F L r src dst = some (.ok (), out) ∧ out.length = dst.buffer.length ∧
      (∀ y x c, y < dst.height → x < dst.width → c < 3 → pix30 F out dst.stride y x c =
        separable src.width src.height dst.width dst.height
          (fun i => (qv.bound i).start) (fun i => v30 qv (qv.bound i).size i)
          (fun i => (qh.bound i).start) (fun i => v30 qh (taps30 dst.height y (qh.bound i).size) i)
          (fun y x => pix30 F src.buffer src.stride y x c) y x) ∧
      (∀ y x, y < dst.height → x < dst.width → pix30 F out dst.stride y x 3 = 3) ∧
      (∀ y p, y < dst.height → dst.width * 4 ≤ p → p < dst.stride →
        out[y * dst.stride + p]? = dst.buffer[y * dst.stride + p]?) := by
  obtain ⟨c0, _, _, cs, cd⟩ := check30_ok.1 h.checked
  obtain ⟨vf, ev, Tv, Sv⟩ := table_exists L r (out := dst.height) c0.2.1 h.small.2 (fun ha => (h.area ha).2)
  obtain ⟨hf, eh, Th, Sh⟩ := table_exists L r (out := dst.width) c0.1 h.small.1 (fun ha => (h.area ha).1)
  have Ov := h.noOverflow.1 _ ⟨vf, ev, rfl⟩
  have Oh := h.noOverflow.2 _ ⟨hf, eh, rfl⟩
  refine ⟨numericalApproximation F32.rnd vf, numericalApproximation F32.rnd hf, ?_⟩
  unfold resize30
  rw [h.checked]
  simp only
  rw [if_neg (by have := h.sizes; tauto), if_neg h.filter]
  by_cases hw : src.width = dst.width
  · have hh : src.height ≠ dst.height := by have := h.sizes; tauto
    rw [if_pos ⟨hh, hw⟩]
    obtain ⟨out, o1, o2, o3, o4, _, o5⟩ := vertical30_spec F (src := src.buffer) (dst := dst.buffer) (ss := src.stride)
      (ds := src.stride) (width := src.width) c0.1
      (by rw [cs.1, Nat.mul_comm]) (by rw [cd.1, Nat.mul_comm, hst hw]) cs.2 cs.2 Tv Sv Ov h.bytes
    refine ⟨out, ⟨vf, ev, rfl⟩, ⟨hf, eh, rfl⟩, Sv.q_valid Tv, Sh.q_valid Th, ?_, o2, ?_, ?_, ?_⟩
    · simp only [ev, o1, Option.bind_eq_bind, Option.bind_some]
    · intro y x c hy hx hc
      rw [← hst hw, o3 y x c hy (by omega) hc]
      simp only [separable, if_pos hw, if_neg hh]
      rfl
    · intro y x hy hx
      rw [← hst hw]; exact o4 y x hy (by omega)
    · intro y p hy hp hps
      rw [← hst hw] at hps ⊢; exact o5 y p hy (by omega) hps
  · rw [if_neg (by tauto)]
    by_cases hh : src.height = dst.height
    · rw [if_neg (by omega)]
      obtain ⟨out, o1, o2, o3, o4, o5⟩ := horizontal30_spec F (src := src.buffer) (dst := dst.buffer) (ss := src.stride)
        (ds := dst.stride) (H := dst.height) c0.1 c0.2.2.1
        (by rw [cs.1, Nat.mul_comm, hh]) (by rw [cd.1, Nat.mul_comm]) cs.2 cd.2 Th Sh Oh h.bytes
      refine ⟨out, ⟨vf, ev, rfl⟩, ⟨hf, eh, rfl⟩, Sv.q_valid Tv, Sh.q_valid Th, ?_, o2, ?_, o4, o5⟩
      · simp only [eh, o1, Option.bind_eq_bind, Option.bind_some]
      · intro y x c hy hx hc
        rw [o3 y x c hy hx hc]
        simp only [separable, if_neg hw, if_pos hh]
        rfl
    · rw [if_pos hh, if_neg (by have := h.fits; omega)]
      obtain ⟨t, t1, t2, t3, _, t4, _⟩ := vertical30_spec F (src := src.buffer)
        (dst := List.replicate (src.width * dst.height * 4) 0) (ss := src.stride)
        (ds := src.width * 4) (width := src.width) c0.1
        (by rw [cs.1, Nat.mul_comm]) (by rw [List.length_replicate]; ring) cs.2 (le_refl _) Tv Sv Ov h.bytes
      rw [List.length_replicate] at t2
      have tb : ∀ v ∈ t, v < 256 := by
        intro v hv
        obtain ⟨i, hi, rfl⟩ := List.getElem_of_mem hv
        have hpos : 0 < src.width * 4 := by omega
        have h1 := t4 (i / (src.width * 4)) (i % (src.width * 4))
          (by rw [Nat.div_lt_iff_lt_mul hpos, t2] at *; calc i < src.width * dst.height * 4 := by omega
                _ = dst.height * (src.width * 4) := by ring)
          (Nat.mod_lt _ hpos)
        rw [Nat.mul_comm, Nat.div_add_mod, List.getD_eq_getElem?_getD, List.getElem?_eq_getElem hi] at h1
        exact h1
      obtain ⟨out, o1, o2, o3, o4, o5⟩ := horizontal30_spec F (src := t) (dst := dst.buffer) (ss := src.width * 4)
        (ds := dst.stride) (H := dst.height) c0.1 c0.2.2.1
        (by rw [t2]; ring) (by rw [cd.1, Nat.mul_comm]) (le_refl _) cd.2 Th Sh Oh tb
      refine ⟨out, ⟨vf, ev, rfl⟩, ⟨hf, eh, rfl⟩, Sv.q_valid Tv, Sh.q_valid Th, ?_, o2, ?_, o4, o5⟩
      · simp only [ev, eh, t1, o1, Option.bind_eq_bind, Option.bind_some]
      · intro y x c hy hx hc
        rw [o3 y x c hy hx hc]
        simp only [separable, if_neg hw, if_neg hh]
        apply v30_congr (q := numericalApproximation F32.rnd hf)
        intro k hk
        have := taps30_le dst.height y (hf.bound x).size
        have hin := Th.inside x hx
        have hk' : k < taps30 dst.height y (hf.bound x).size := hk
        rw [t3 y _ c hy (by omega) hc]
        rfl

/-- **C49 (partial).** `resize_ar30` is the separable resize of the three 10-bit components: each
component of each destination pixel is the horizontal fixed point sum (all taps, rounded, clamped to
1023) of the vertical fixed point sums of the same component; alpha is full; row padding is kept; the
byte order and the layout only affect how components are stored. Missing from the full claim: the
`height % 4` last rows when some window of the horizontal filter is not 2, 3, 4 or 6 pixels wide
(false there, `C40_violated`), and purely vertical resizes between different strides (false there,
`C41_vertical_stride_violated`). -/
theorem C49_separable_partial (F : Fmt30) {W : ℕ} {L : Lib} {r : ResamplingFunction} {src dst : Image ℕ}
    (h : Accepted30 W L r src dst) (hst : src.width = dst.width → src.stride = dst.stride)
    (hrows : dst.height % 4 = 0 ∨ ∀ q, IsTable L r src.width dst.width q → ∀ x, x < dst.width →
      (q.bound x).size = 2 ∨ (q.bound x).size = 3 ∨ (q.bound x).size = 4 ∨ (q.bound x).size = 6) :
    ∃ qv qh out, IsTable L r src.height dst.height qv ∧ IsTable L r src.width dst.width qh ∧
      ValidTable qv src.height dst.height ∧ ValidTable qh src.width dst.width ∧
      resize30 W F L r src dst = some (.ok (), out) ∧ out.length = dst.buffer.length ∧
      (∀ y x c, y < dst.height → x < dst.width → c < 3 → pix30 F out dst.stride y x c =
        separable src.width src.height dst.width dst.height
          (fun i => (qv.bound i).start) (fun i p => fixedRound 1023 (qv.bound i).size (fun k => qv.weight i k) p)
          (fun i => (qh.bound i).start) (fun i p => fixedRound 1023 (qh.bound i).size (fun k => qh.weight i k) p)
          (fun y x => pix30 F src.buffer src.stride y x c) y x) ∧
      (∀ y x, y < dst.height → x < dst.width → pix30 F out dst.stride y x 3 = 3) ∧
      (∀ y p, y < dst.height → dst.width * 4 ≤ p → p < dst.stride →
        out[y * dst.stride + p]? = dst.buffer[y * dst.stride + p]?) := by
  obtain ⟨qv, qh, out, a1, a2, a3, a4, a5, a6, a7, a8⟩ := resize30_exact F h hst
  refine ⟨qv, qh, out, a1, a2, a3, a4, a5, a6, ?_, a8⟩
  intro y x c hy hx hc
  rw [a7 y x c hy hx hc]
  have ht : taps30 dst.height y (qh.bound x).size = (qh.bound x).size := by
    unfold taps30
    rcases hrows with h4 | h4
    · rw [if_pos (by omega)]
    · split_ifs
      · rfl
      · unfold taps1
        rw [if_pos (h4 qh a2 x hx)]
  unfold separable
  simp only [ht]
  rfl

/-! ### C40: rows in groups of four and single rows -/

/-- **C40 (partial).** A row of packed pixels is filtered to the same bytes whether it is one of a group
of four or a single row, provided every window is 2, 3, 4 or 6 pixels wide. Stated for the pass over
two images that share a row at positions of either kind. Missing: other window sizes, where the claim
is false (`C40_violated`). -/
theorem C40_rows_partial (F : Fmt30) {src dst src' dst' : List ℕ} {ss ds ss' ds' H H' inn out y y' : ℕ}
    {fw : FilterWeights ℚ} {r r' : List ℕ} (hin : 0 < inn) (hout : 0 < out)
    (hs : src.length = H * ss) (hd : dst.length = H * ds) (hss : inn * 4 ≤ ss) (hds : out * 4 ≤ ds)
    (hs' : src'.length = H' * ss') (hd' : dst'.length = H' * ds') (hss' : inn * 4 ≤ ss') (hds' : out * 4 ≤ ds')
    (hT : ValidTable fw inn out) (hP : PlainShape fw out)
    (hO : NoOverflow (numericalApproximation F32.rnd fw) out 1023)
    (hb : ∀ v ∈ src, v < 256) (hb' : ∀ v ∈ src', v < 256)
    (hwin : ∀ x, x < out → (fw.bound x).size = 2 ∨ (fw.bound x).size = 3 ∨ (fw.bound x).size = 4 ∨ (fw.bound x).size = 6)
    (hr : horizontal30 F src ss fw dst ds = some r) (hr' : horizontal30 F src' ss' fw dst' ds' = some r')
    (hy : y < H) (hy' : y' < H')
    (hrow : ∀ x c, x < inn → c < 3 → pix30 F src ss y x c = pix30 F src' ss' y' x c) :
    ∀ x c, x < out → c ≤ 3 → pix30 F r ds y x c = pix30 F r' ds' y' x c := by
  obtain ⟨s, a1, _, a3, a4, _⟩ := horizontal30_spec F hin hout hs hd hss hds hT hP hO hb
  obtain ⟨s', b1, _, b3, b4, _⟩ := horizontal30_spec F hin hout hs' hd' hss' hds' hT hP hO hb'
  rw [hr] at a1
  rw [hr'] at b1
  obtain rfl := Option.some.inj a1
  obtain rfl := Option.some.inj b1
  intro x c hx hc
  by_cases h3 : c = 3
  · subst h3; rw [a4 y x hy hx, b4 y' x hy' hx]
  · rw [a3 y x c hy hx (by omega), b3 y' x c hy' hx (by omega)]
    have ht : ∀ H y, taps30 H y (fw.bound x).size = (fw.bound x).size := by
      intro H y
      unfold taps30 taps1
      rw [if_pos (hwin x hx), ite_self]
    rw [ht, ht]
    apply v30_congr (q := numericalApproximation F32.rnd fw)
    intro k hk
    exact hrow _ c (by have := hT.inside x hx; omega) (by omega)

/-- Eight packed pixels of growing brightness. -/
def Demo.row30 : List ℕ := (List.range 8).flatMap fun i => toNeBytes .little (pack30 .little .ar30 .host (100 * i) (50 * i) 7)

/-- **C40 is false**: a row of eight packed pixels reduced to three, once as the only row of an image
and once as the first of four equal rows; the results differ (the middle window has five pixels and
the single-row code uses one of them). -/
theorem C40_violated : ∃ (F : Fmt30) (L : Lib) (src src4 dst dst4 : Image ℕ) (out out4 : List ℕ),
    (∀ i, i < 32 → src.buffer[i]? = src4.buffer[i]?) ∧
    resize30 (2 ^ 64) F L .bilinear src dst = some (.ok (), out) ∧
    resize30 (2 ^ 64) F L .bilinear src4 dst4 = some (.ok (), out4) ∧
    src.width = src4.width ∧ dst.width = dst4.width ∧
    pix30 F out dst.stride 0 1 0 ≠ pix30 F out4 dst4.stride 0 1 0 := by
  refine ⟨⟨.little, .ar30, .host⟩, demoLib, ⟨Demo.row30, 4, 8, 1, 32, 0⟩,
    ⟨Demo.row30 ++ Demo.row30 ++ Demo.row30 ++ Demo.row30, 4, 8, 4, 32, 0⟩,
    ⟨List.replicate 12 0, 4, 3, 1, 12, 0⟩, ⟨List.replicate 48 0, 4, 3, 4, 12, 0⟩,
    ((resize30 (2 ^ 64) ⟨.little, .ar30, .host⟩ demoLib .bilinear ⟨Demo.row30, 4, 8, 1, 32, 0⟩
      ⟨List.replicate 12 0, 4, 3, 1, 12, 0⟩).getD (.ok (), [])).2,
    ((resize30 (2 ^ 64) ⟨.little, .ar30, .host⟩ demoLib .bilinear
      ⟨Demo.row30 ++ Demo.row30 ++ Demo.row30 ++ Demo.row30, 4, 8, 4, 32, 0⟩
      ⟨List.replicate 48 0, 4, 3, 4, 12, 0⟩).getD (.ok (), [])).2, ?_, ?_, ?_, rfl, rfl, ?_⟩
  · decide +kernel
  · decide +kernel
  · decide +kernel
  · decide +kernel

/-! ### C41: strides -/

/-- **C41 (partial).** When both dimensions change, or only the width, `resize_ar30` reads rows at the
source stride and writes rows at the destination stride: the picture written does not depend on the
strides or on padding bytes. Two calls on the same picture stored with different strides give the same
picture. When only the height changes this needs each call to use one stride for both images. Missing:
purely vertical resizes with different strides, equal sizes with different strides, and Nearest — all
false, see below. -/
theorem C41_strides_partial (F : Fmt30) {W : ℕ} {L : Lib} {r : ResamplingFunction} {src dst src' dst' : Image ℕ}
    (h : Accepted30 W L r src dst) (h' : Accepted30 W L r src' dst')
    (hst : src.width = dst.width → src.stride = dst.stride ∧ src'.stride = dst'.stride)
    (hsz : src.width = src'.width ∧ src.height = src'.height) (hdz : dst.width = dst'.width ∧ dst.height = dst'.height)
    (hp : ∀ y x c, y < src.height → x < src.width → c < 3 →
      pix30 F src.buffer src.stride y x c = pix30 F src'.buffer src'.stride y x c) :
    ∃ out out', resize30 W F L r src dst = some (.ok (), out) ∧ resize30 W F L r src' dst' = some (.ok (), out') ∧
      (∀ y x c, y < dst.height → x < dst.width → c ≤ 3 →
        pix30 F out dst.stride y x c = pix30 F out' dst'.stride y x c) ∧
      (∀ y p, y < dst.height → dst.width * 4 ≤ p → p < dst.stride →
        out[y * dst.stride + p]? = dst.buffer[y * dst.stride + p]?) := by
  obtain ⟨qv, qh, out, a1, a2, a3, a4, a5, a6, a7, a8, a9⟩ := resize30_exact F h (fun e => (hst e).1)
  obtain ⟨qv', qh', out', b1, b2, b3, b4, b5, b6, b7, b8, b9⟩ := resize30_exact F h'
    (fun e => (hst (by omega)).2)
  rw [← hsz.1, ← hdz.1] at b2
  rw [← hsz.2, ← hdz.2] at b1
  obtain ⟨fv, e1, rfl⟩ := a1
  obtain ⟨fv', e1', rfl⟩ := b1
  obtain ⟨fh, e2, rfl⟩ := a2
  obtain ⟨fh', e2', rfl⟩ := b2
  rw [e1] at e1'
  rw [e2] at e2'
  obtain rfl := Option.some.inj e1'
  obtain rfl := Option.some.inj e2'
  refine ⟨out, out', a5, b5, ?_, a9⟩
  intro y x c hy hx hc
  by_cases h3 : c = 3
  · subst h3
    rw [a8 y x hy hx, b8 y x (by omega) (by omega)]
  have hc3 : c < 3 := by omega
  rw [a7 y x c hy hx hc3, b7 y x c (by omega) (by omega) hc3, ← hsz.1, ← hsz.2, ← hdz.1, ← hdz.2]
  unfold separable
  simp only
  have hcol : ∀ x', x' < src.width →
      (if src.height = dst.height then pix30 F src.buffer src.stride y x' c
        else v30 (numericalApproximation F32.rnd fv) ((numericalApproximation F32.rnd fv).bound y).size y
          (fun k => pix30 F src.buffer src.stride (((numericalApproximation F32.rnd fv).bound y).start + k) x' c)) =
      (if src.height = dst.height then pix30 F src'.buffer src'.stride y x' c
        else v30 (numericalApproximation F32.rnd fv) ((numericalApproximation F32.rnd fv).bound y).size y
          (fun k => pix30 F src'.buffer src'.stride (((numericalApproximation F32.rnd fv).bound y).start + k) x' c)) := by
    intro x' hx'
    split_ifs with hh
    · exact hp y x' c (by omega) hx' hc3
    · apply v30_congr
      intro k hk
      exact hp _ x' c (by have := a3.inside y hy; omega) hx' hc3
  by_cases hw : src.width = dst.width
  · rw [if_pos hw, if_pos hw]
    exact hcol x (by omega)
  · rw [if_neg hw, if_neg hw]
    apply v30_congr
    intro k hk
    have := taps30_le dst.height y ((numericalApproximation F32.rnd fh).bound x).size
    exact hcol _ (by have := a4.inside x hx; omega)

/-- **C41 is false for purely vertical resizes**: a well-formed call panics (destination stride larger
than the source stride), another one returns `Ok` without having written the destination rows (source
stride larger; the last two destination rows keep their old bytes). -/
theorem C41_vertical_stride_violated : ∃ (F : Fmt30) (L : Lib),
    (∃ src dst : Image ℕ, check30 (2 ^ 64) src dst = .ok () ∧
      resize30 (2 ^ 64) F L .bilinear src dst = none) ∧
    (∃ src dst : Image ℕ, check30 (2 ^ 64) src dst = .ok () ∧ ∀ a b : ℕ, a ≤ 77 → b < 8 →
      ∃ out, resize30 (2 ^ 64) F L .bilinear src { dst with buffer := List.replicate 12 a } = some (.ok (), out) ∧
        out[4 + b]? = some a) := by
  refine ⟨⟨.little, .ar30, .host⟩, demoLib, ⟨⟨[1, 2, 3, 4, 200, 100, 50, 255], 4, 1, 2, 4, 0⟩,
    ⟨List.replicate 8 7, 4, 1, 1, 8, 0⟩, by decide +kernel, by decide +kernel⟩,
    ⟨⟨[1, 2, 3, 4, 0, 0, 0, 0, 200, 100, 50, 255, 0, 0, 0, 0], 4, 1, 2, 8, 0⟩,
      ⟨List.replicate 12 7, 4, 1, 3, 4, 0⟩, by decide +kernel, ?_⟩⟩
  intro a b ha hb
  refine ⟨[1, 2, 3, 196] ++ List.replicate 8 a, ?_, ?_⟩
  · have key : ∀ a, a < 78 → resize30 (2 ^ 64) ⟨.little, .ar30, .host⟩ demoLib .bilinear
        ⟨[1, 2, 3, 4, 0, 0, 0, 0, 200, 100, 50, 255, 0, 0, 0, 0], 4, 1, 2, 8, 0⟩
        { (⟨List.replicate 12 7, 4, 1, 3, 4, 0⟩ : Image ℕ) with buffer := List.replicate 12 a } =
        some (.ok (), [1, 2, 3, 196] ++ List.replicate 8 a) := by decide +kernel
    exact key a (by omega)
  · rw [List.getElem?_append_right (by simp), List.getElem?_replicate, if_pos (by simp; omega)]

/-- **C41 is false for equal sizes**: an image copied between different strides is sheared. -/
theorem C41_copy_violated : ∃ (F : Fmt30) (L : Lib) (src dst : Image ℕ) (out : List ℕ),
    check30 (2 ^ 64) src dst = .ok () ∧ src.width = dst.width ∧ src.height = dst.height ∧
    resize30 (2 ^ 64) F L .bilinear src dst = some (.ok (), out) ∧
    pix30 F out dst.stride 1 0 0 ≠ pix30 F src.buffer src.stride 1 0 0 :=
  ⟨⟨.little, .ar30, .host⟩, demoLib, ⟨[1, 0, 0, 192, 2, 0, 0, 192], 4, 1, 2, 4, 0⟩,
    ⟨List.replicate 16 0, 4, 1, 2, 8, 0⟩, [1, 0, 0, 192, 2, 0, 0, 192, 0, 0, 0, 0, 0, 0, 0, 0],
    by decide +kernel, rfl, rfl, by decide +kernel, by decide +kernel⟩

/-- **C41 is false for Nearest**, for every image: when the destination has fewer than four rows a
Nearest resize of packed images (to a different size) returns `Ok` and writes nothing. -/
theorem C41_nearest_unwritten (F : Fmt30) {W : ℕ} {L : Lib} {src dst : Image ℕ}
    (hc : check30 W src dst = .ok ()) (hsz : ¬ (src.width = dst.width ∧ src.height = dst.height))
    (h4 : dst.height < 4) : resize30 W F L .nearest src dst = some (.ok (), dst.buffer) := by
  obtain ⟨c0, _, _, _, cd⟩ := check30_ok.1 hc
  have hst : 0 < dst.stride := by have := cd.2; omega
  unfold resize30
  rw [hc]
  simp only
  rw [if_neg hsz, if_pos trivial]
  unfold resizeNearest
  rw [cd.1, Nat.mul_div_mul_left _ _ hst, Nat.div_eq_of_lt h4]
  simp [updChunks]

example : check30 (2 ^ 64) ⟨List.range 8, 4, 2, 1, 8, 0⟩ ⟨List.replicate 12 77, 4, 3, 1, 12, 0⟩ = .ok () := by decide +kernel

/-- … and with four rows it panics on a well-formed call. -/
theorem C41_nearest_panic_violated : ∃ (F : Fmt30) (L : Lib) (src dst : Image ℕ),
    check30 (2 ^ 64) src dst = .ok () ∧ resize30 (2 ^ 64) F L .nearest src dst = none :=
  ⟨⟨.little, .ar30, .host⟩, demoLib, ⟨List.range 16, 4, 2, 2, 8, 0⟩, ⟨List.replicate 64 77, 4, 4, 4, 16, 0⟩,
    by decide +kernel, by decide +kernel⟩

/-! ### the hypotheses can be met -/

theorem noOverflow30_of_taps {L : Lib} {r : ResamplingFunction} {inn out : ℕ} {q : FilterWeights ℤ}
    (h1 : 1 ≤ inn) (h2 : inn ≤ 2 ^ 23) (ha : r = .area → out ≤ 2 ^ 22) (hq : IsTable L r inn out q)
    (ht : q.kernelSize ≤ 64) : NoOverflow q out 1023 := by
  obtain ⟨fw, e, rfl⟩ := hq
  obtain ⟨fw', e', v, _, _, hr, _⟩ := C17_quantised L r inn out h1 h2 ha
  unfold tableOf at e
  rw [e'] at e
  obtain rfl := Option.some.inj e
  intro i hi
  have hle : ((numericalApproximation F32.rnd fw').bound i).size ≤ 64 := le_trans (v.size_le i hi) ht
  have hs : ∑ k ∈ range ((numericalApproximation F32.rnd fw').bound i).size, |(numericalApproximation F32.rnd fw').weight i k| ≤
      ∑ _k ∈ range ((numericalApproximation F32.rnd fw').bound i).size, (32768 : ℤ) := by
    refine sum_le_sum fun k _ => ?_
    have := hr i k
    exact abs_le.2 ⟨by omega, by omega⟩
  rw [sum_const, card_range, nsmul_eq_mul] at hs
  have : ((((numericalApproximation F32.rnd fw').bound i).size : ℕ) : ℤ) ≤ 64 := by exact_mod_cast hle
  push_cast
  linarith

def Demo.src30 : Image ℕ := ⟨Demo.row30 ++ [0, 0, 0] ++ Demo.row30 ++ [1, 1, 1], 4, 8, 2, 35, 0⟩
def Demo.dst30 : Image ℕ := ⟨List.replicate 56 9, 4, 3, 4, 14, 0⟩

theorem Demo.accepted30 : Accepted30 (2 ^ 64) demoLib .bilinear Demo.src30 Demo.dst30 := by
  constructor
  · decide +kernel
  · decide
  · decide
  · decide
  · simp
  · decide
  · decide +kernel
  · constructor
    · intro q hq
      refine noOverflow30_of_taps (by decide) (by decide) (by simp) hq ?_
      obtain ⟨fw, e, rfl⟩ := hq
      have : (tableOf demoLib .bilinear Demo.src30.height Demo.dst30.height).map (·.kernelSize) = some 2 := by
        decide +kernel
      rw [e] at this
      show fw.kernelSize ≤ 64
      simp at this; omega
    · intro q hq
      refine noOverflow30_of_taps (by decide) (by decide) (by simp) hq ?_
      obtain ⟨fw, e, rfl⟩ := hq
      have : (tableOf demoLib .bilinear Demo.src30.width Demo.dst30.width).map (decide <| ·.kernelSize ≤ 64) = some true := by
        decide +kernel
      rw [e] at this
      show fw.kernelSize ≤ 64
      simpa using this

/-- `C49_separable_partial` applies: both dimensions change, padded rows, four destination rows. -/
example : ∃ out, resize30 (2 ^ 64) ⟨.little, .ar30, .host⟩ demoLib .bilinear Demo.src30 Demo.dst30 = some (.ok (), out) ∧
    pix30 ⟨.little, .ar30, .host⟩ out 14 2 1 3 = 3 := by
  obtain ⟨_, _, out, _, _, _, _, h1, _, _, h2, _⟩ := C49_separable_partial ⟨.little, .ar30, .host⟩ Demo.accepted30
    (by decide) (Or.inl (by decide))
  exact ⟨out, h1, h2 2 1 (by decide) (by decide)⟩

/-- `C40_rows_partial` and `C41_strides_partial` have inhabited hypotheses as well. -/
example : ∃ out out', resize30 (2 ^ 64) ⟨.big, .ra30, .network⟩ demoLib .bilinear Demo.src30 Demo.dst30 = some (.ok (), out) ∧
    resize30 (2 ^ 64) ⟨.big, .ra30, .network⟩ demoLib .bilinear Demo.src30 Demo.dst30 = some (.ok (), out') := by
  obtain ⟨out, out', h1, h2, _⟩ := C41_strides_partial ⟨.big, .ra30, .network⟩ Demo.accepted30 Demo.accepted30
    (by decide) ⟨rfl, rfl⟩ ⟨rfl, rfl⟩ (fun _ _ _ _ _ _ => rfl)
  exact ⟨out, out', h1, h2⟩

end PicScale
